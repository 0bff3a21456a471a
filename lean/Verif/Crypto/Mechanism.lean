import Verif.Own.Spec

/-!
# The base class of mechanisms

src/Crypto/SoftPkcs11/Mechanisms/Base/Mechanism.cpp 1-142, Mechanism.hpp (in the same directory) 20-158.

A mechanism is a table of seven callbacks, each of which is given the address of the mechanism it is called for.  The
callbacks of a derived class convert that address to a pointer to the derived class (there is no other way for them to
reach their object), so calling one for an object of another class is undefined.  Copying and copy assignment are the
implicitly declared ones: they copy the table.

Simplifications: classes are numbered; what the callbacks of a derived class answer is arbitrary but does not change;
the parameter of `processParameter` is part of the query.
-/

namespace Flame.Mech
open Flame.Own (upd upd_self upd_ne)

/-- The public queries (Mechanism.hpp 117-133). -/
inductive Query where
  | getType
  | getInfo
  | getEncryptor
  | getDecryptor
  | getSigner
  | getVerifier
  | processParameter (p : Nat)
  deriving DecidableEq, Repr

/-- What a query returns. -/
inductive Answer where
  /-- a CK_MECHANISM_TYPE -/
  | type (v : Nat)
  /-- CK_MECHANISM_INFO: the smallest and the largest key size, flags -/
  | info (min max flags : Nat)
  /-- a value of the operation: an encryptor, decryptor, signer or verifier -/
  | value (v : Nat)
  /-- the error of an `Expected`, or the result of `processParameter` -/
  | code (v : Nat)
  deriving DecidableEq, Repr

/-- The callbacks of one class: what they answer for the object at an address. -/
abbrev Class := Nat → Query → Answer

/-- A callback: one of the default ones, or that of derived class `c`. -/
inductive Cb where
  | dflt
  | user (c : Nat)
  deriving DecidableEq, Repr

structure Obj where
  /-- the class of the object; `none`: `Mechanism` itself -/
  cls : Option Nat
  /-- the members `getTypeCallback` ... `processParameterCallback` (Mechanism.hpp 149-156) -/
  getTypeCb : Cb
  getInfoCb : Cb
  getEncryptorCb : Cb
  getDecryptorCb : Cb
  getSignerCb : Cb
  getVerifierCb : Cb
  processParameterCb : Cb
  deriving DecidableEq, Repr

/-- Mechanism.cpp 71-88: the protected constructor. -/
def construct (cls : Option Nat) (t i e d s v p : Cb) : Obj :=
  { cls, getTypeCb := t, getInfoCb := i, getEncryptorCb := e, getDecryptorCb := d, getSignerCb := s, getVerifierCb := v,
    processParameterCb := p }

/-- Mechanism.cpp 21-31: the default constructor. -/
def default : Obj := construct none .dflt .dflt .dflt .dflt .dflt .dflt .dflt

/-- Mechanism.cpp 92-140: the default callbacks (values: pkcs11t.h 1097, 1215, 1177). -/
def dfltAnswer : Query → Answer
  | .getType => .type 0x80000000
  | .getInfo => .info 0 0 0
  | .getEncryptor => .code 0x70
  | .getDecryptor => .code 0x70
  | .getSigner => .code 0x70
  | .getVerifier => .code 0x70
  | .processParameter _ => .code 7

/-- Calling one callback for the object `o` at address `a`. -/
def callCb (classes : Nat → Class) (o : Obj) (a : Nat) (q : Query) : Cb → Res Answer
  | .dflt => .ok (dfltAnswer q)
  | .user c => if o.cls = some c then .ok (classes c a q) else .ub

/-- Mechanism.cpp 36-69: each query calls its callback with `this`. -/
def ask (classes : Nat → Class) (o : Obj) (a : Nat) (q : Query) : Res Answer :=
  callCb classes o a q (match q with
    | .getType => o.getTypeCb
    | .getInfo => o.getInfoCb
    | .getEncryptor => o.getEncryptorCb
    | .getDecryptor => o.getDecryptorCb
    | .getSigner => o.getSignerCb
    | .getVerifier => o.getVerifierCb
    | .processParameter _ => o.processParameterCb)

/-- The implicit copy of the base class part: `u` keeps its class and receives the table of `v`. -/
def copyBase (u v : Obj) : Obj := { v with cls := u.cls }

abbrev St := Nat → Option Obj

inductive Op where
  /-- a plain `Mechanism` at address `a` -/
  | plain (a : Nat)
  /-- an object of derived class `c`, which passes callbacks for the queries in `own` and the default ones otherwise -/
  | derived (a c : Nat) (own : Query → Bool)
  /-- `Mechanism{ *b }` at `a` -/
  | copy (a b : Nat)
  /-- `*a = *b` through references to `Mechanism` -/
  | assign (a b : Nat)
  | drop (a : Nat)

def pick (c : Nat) (own : Query → Bool) (q : Query) : Cb := if own q then .user c else .dflt

def step (s : St) : Op → Res St
  | .plain a => .ok (upd s a (some default))
  | .derived a c own => .ok (upd s a (some (construct (some c) (pick c own .getType) (pick c own .getInfo)
      (pick c own .getEncryptor) (pick c own .getDecryptor) (pick c own .getSigner) (pick c own .getVerifier)
      (pick c own (.processParameter 0)))))
  | .copy a b => match s b with
    | some v => .ok (upd s a (some (copyBase default v)))
    | none => .ub
  | .assign a b => match s a, s b with
    | some u, some v => .ok (upd s a (some (copyBase u v)))
    | _, _ => .ub
  | .drop a => .ok (upd s a none)

/-- Objects that exist, new addresses are free. -/
def pre (s : St) : Op → Prop
  | .plain a => s a = none
  | .derived a _ _ => s a = none
  | .copy a b => s a = none ∧ s b ≠ none
  | .assign a b => s a ≠ none ∧ s b ≠ none
  | .drop a => s a ≠ none

/-- In addition, only objects of class `Mechanism` itself are copied, and objects are assigned only within one class. -/
def kept (s : St) (o : Op) : Prop :=
  pre s o ∧ match o with
    | .copy _ b => ∀ v, s b = some v → v.cls = none
    | .assign a b => ∀ u v, s a = some u → s b = some v → u.cls = v.cls
    | _ => True

end Flame.Mech
