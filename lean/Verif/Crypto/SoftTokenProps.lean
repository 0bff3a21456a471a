import Verif.Crypto.SoftTokenSpec
import Verif.Crypto.LibraryProps

/-! # C94, C95: the soft token's general functions -/

namespace Flame
open Soft
open Pkcs11 (Rv OK)

namespace Soft

/-- The code the token gives for a call, whatever happened before (`none`: undefined). -/
def code : Call → Option Rv
  | .start none => some ARGUMENTS_BAD
  | .start (some _) => some OK
  | .finalize => some OK
  | .getInfo out => some (if out then OK else ARGUMENTS_BAD)
  | .getFunctionList out => if out then some OK else none
  | .getInterfaceList _ none => some ARGUMENTS_BAD
  | .getInterfaceList none (some _) => some OK
  | .getInterfaceList (some is) (some _) => if is = [] then none else some OK
  | .getInterface none => none
  | .getInterface (some _) => some ARGUMENTS_BAD
  | .getSlotList _ _ => some OK

theorem call_code (a : Call) :
    (match code a with
      | some rv => ∃ o, call Ctx.start a = .ok (o, Ctx.start) ∧ o.rv = rv
      | none => call Ctx.start a = .ub) := by
  cases a with
  | start args => cases args <;> exact ⟨_, rfl, rfl⟩
  | finalize => exact ⟨_, rfl, rfl⟩
  | getInfo out => cases out <;> exact ⟨_, rfl, rfl⟩
  | getFunctionList out => cases out <;> first | exact ⟨_, rfl, rfl⟩ | rfl
  | getInterfaceList is n =>
    cases n with
    | none => cases is <;> exact ⟨_, rfl, rfl⟩
    | some n =>
      cases is with
      | none => exact ⟨_, rfl, rfl⟩
      | some is => cases is <;> first | exact ⟨_, rfl, rfl⟩ | rfl
  | getInterface name => cases name <;> first | exact ⟨_, rfl, rfl⟩ | rfl
  | getSlotList l n => exact ⟨_, rfl, rfl⟩

theorem call_some {a : Call} {rv : Rv} (h : code a = some rv) : ∃ o, call Ctx.start a = .ok (o, Ctx.start) ∧ o.rv = rv := by
  have := call_code a
  rwa [h] at this

theorem call_none {a : Call} (h : code a = none) : call Ctx.start a = .ub := by
  have := call_code a
  rwa [h] at this

end Soft

/-! ## C94: the initialisation protocol -/

/-- **C94, exact.** The token has no memory: in every history each call gets the code it would get alone, and the history is undefined exactly if
some call is (a null function list pointer, an interface array without room, a null name). -/
theorem C94_codes_exact (as : List Call) :
    (∀ rvs, as.mapM code = some rvs → ∃ os, calls Ctx.start as = .ok os ∧ os.map (·.rv) = rvs) ∧
    (as.mapM code = none → calls Ctx.start as = .ub) := by
  induction as with
  | nil =>
    refine ⟨?_, by simp⟩
    intro rvs h
    simp at h
    subst h
    exact ⟨[], rfl, rfl⟩
  | cons a as ih =>
    cases hc : code a with
    | none =>
      refine ⟨by simp [List.mapM_cons, hc], fun _ => by simp [calls, call_none hc]⟩
    | some rv =>
      obtain ⟨o, ho, hrv⟩ := call_some hc
      cases hm : as.mapM code with
      | none =>
        refine ⟨by simp [List.mapM_cons, hc, hm], fun _ => ?_⟩
        simp [calls, ho, ih.2 hm]
      | some rs =>
        refine ⟨?_, by simp [List.mapM_cons, hc, hm]⟩
        intro rvs h
        simp [List.mapM_cons, hc, hm] at h
        subst h
        obtain ⟨os, h1, h2⟩ := ih.1 rs hm
        exact ⟨o :: os, by simp [calls, ho, h1], by simp [hrv, h2]⟩

/-- **C94, what holds.** In a polite history every call gets the code PKCS#11 asks for. -/
theorem C94_protocol_partial (as : List Call) (on : Bool) (h : Polite on as) :
    ∃ os, calls Ctx.start as = .ok os ∧ os.map (·.rv) = specRvs on as := by
  refine (C94_codes_exact as).1 _ ?_
  induction as generalizing on with
  | nil => rfl
  | cons a as ih =>
    obtain ⟨h1, h2⟩ := h
    have hc : code a = some (specRv on a).1 := by
      cases a with
      | start args => cases args <;> simp_all [polite, code, specRv]
      | finalize => simp_all [polite, code, specRv]
      | getInfo out => simp_all [polite, code, specRv]
      | getFunctionList out => simp_all [polite, code, specRv]
      | getInterfaceList is n =>
        cases n with
        | none => cases is <;> rfl
        | some n =>
          cases is with
          | none => rfl
          | some is =>
            cases is with
            | nil => simp only [polite, List.length_nil] at h1; omega
            | cons => simp_all [polite, code, specRv]
      | getInterface name => exact absurd h1 id
      | getSlotList l n => simp_all [polite, code, specRv]
    simp [List.mapM_cons, hc, ih _ h2, specRvs]

/-- **C94 fails.** After any history that is defined, initialising twice succeeds twice, and so do finalising twice and asking for information after
that; without arguments initialising is refused; the interface named "PKCS 11" is refused.  The codes PKCS#11 asks for differ. -/
theorem C94_protocol_violated (as : List Call) (rvs : List Rv) (h : as.mapM code = some rvs) (f : Nat) :
    (∃ os, calls Ctx.start (as ++ [.start (some f), .start (some f)]) = .ok os ∧ os.map (·.rv) = rvs ++ [OK, OK]) ∧
    (∃ os, calls Ctx.start (as ++ [.finalize, .finalize, .getInfo true]) = .ok os ∧ os.map (·.rv) = rvs ++ [OK, OK, OK]) ∧
    (∃ os, calls Ctx.start (as ++ [.start none]) = .ok os ∧ os.map (·.rv) = rvs ++ [ARGUMENTS_BAD]) ∧
    (∃ os, calls Ctx.start (as ++ [.getInterface (some [80, 75, 67, 83, 32, 49, 49])]) = .ok os ∧ os.map (·.rv) = rvs ++ [ARGUMENTS_BAD]) ∧
    (∀ on, (specRv (specRv on (.start (some f))).2 (.start (some f))).1 ≠ OK) ∧
    (∀ on, (specRv (specRv on .finalize).2 .finalize).1 ≠ OK) ∧
    (specRv false (.start none)).1 = OK ∧ (∀ on, (specRv on (.getInterface (some [80, 75, 67, 83, 32, 49, 49]))).1 = OK) := by
  have app : ∀ bs rs, bs.mapM code = some rs → (as ++ bs).mapM code = some (rvs ++ rs) := by
    intro bs rs hb
    simp [List.mapM_append, h, hb]
  refine ⟨(C94_codes_exact _).1 _ (app _ _ rfl), (C94_codes_exact _).1 _ (app _ _ rfl), (C94_codes_exact _).1 _ (app _ _ rfl),
    (C94_codes_exact _).1 _ (app _ _ rfl), ?_, ?_, rfl, ?_⟩
  · intro on; cases on <;> simp [specRv] <;> decide
  · intro on; cases on <;> decide
  · intro on; cases on <;> decide

/-- **C94 fails.** Null pointers PKCS#11 wants refused or accepted are dereferenced: the check in `C_GetFunctionList` lacks its `return`. -/
theorem C94_null_ub (as : List Call) (bs : List Call) :
    calls Ctx.start (as ++ .getFunctionList false :: bs) = .ub ∧ calls Ctx.start (as ++ .getInterface none :: bs) = .ub := by
  constructor <;> refine (C94_codes_exact _).2 ?_
  · cases h : as.mapM code <;> simp [List.mapM_append, List.mapM_cons, h, code]
  · cases h : as.mapM code <;> simp [List.mapM_append, List.mapM_cons, h, code]

/-- **C94, values.** In PKCS#11 numbers: null arguments and null results are refused with 7, the function list is handed out with 0. -/
theorem C94_values :
    call Ctx.start (.start none) = .ok ({ rv := 7 }, Ctx.start) ∧ call Ctx.start (.getInfo false) = .ok ({ rv := 7 }, Ctx.start) ∧
    call Ctx.start (.getFunctionList true) = .ok ({ rv := 0, functions := true }, Ctx.start) :=
  ⟨rfl, rfl, rfl⟩

/-- **C94, the information.** Both text fields have the 32 characters PKCS#11 prescribes; they begin with their texts, and all that follows is zero. -/
theorem C94_info_exact :
    ∃ i, call Ctx.start (.getInfo true) = .ok ({ rv := 0, info := some i }, Ctx.start) ∧
      i.manufacturer.length = 32 ∧ i.description.length = 32 ∧
      i.manufacturer.take 4 = "NONE".toList.map Char.toNat ∧ (∀ c ∈ i.manufacturer.drop 4, c = 0) ∧
      i.description.take 18 = "Flame Soft PKCS#11".toList.map Char.toNat ∧ (∀ c ∈ i.description.drop 18, c = 0) :=
  ⟨theInfo, rfl, by decide, by decide, by decide, by decide, by decide, by decide⟩

/-- **C94 fails.** The text fields of the information are not padded with blanks as PKCS#11 wants. -/
theorem C94_info_not_padded :
    call Ctx.start (.getInfo true) = .ok ({ rv := OK, info := some theInfo }, Ctx.start) ∧
    ¬ BlankPadded 32 NONE theInfo.manufacturer ∧ ¬ BlankPadded 32 FLAME_SOFT_PKCS11 theInfo.description := by
  refine ⟨rfl, ?_, ?_⟩ <;> (unfold BlankPadded; decide)

namespace Soft
/-- The token's answers to `Pkcs11Library::initialize` (`Crypto/Library.lean`): results of `C_GetFunctionList`, `C_GetInterfaceList` asked for the number,
`C_GetInterfaceList` with an array of that size, `C_Initialize`, `C_GetInfo`. -/
def libraryAnswers (o1 o2 o3 o4 o5 : Out) (i : Info) : Pkcs11.Answers Iface Info :=
  { functionList := some o1.rv, interfaceList := some (o2.rv, o2.count.getD 0, o3.rv, o3.ifaces.getD []), initRv := o4.rv, info := o5.rv, infoValue := i }
end Soft

/-- **C94, with the library object.** A `Pkcs11Library` over the soft token always initialises (given memory for one interface), hands out the
token's information, and says there is nothing wrong. -/
theorem C94_with_library (can : Nat → Bool) (hcan : ∀ n, can n = true) (flags : Nat) (junk : Iface)
    (o1 o2 o3 o4 o5 : Out)
    (h : calls Ctx.start [.getFunctionList true, .getInterfaceList none (some 0), .getInterfaceList (some [junk]) (some 1), .start (some flags),
      .getInfo true] = .ok [o1, o2, o3, o4, o5]) :
    ∃ i s' l', o5.info = some i ∧ Pkcs11.initAll can (libraryAnswers o1 o2 o3 o4 o5 i) Pkcs11.init ⟨Pkcs11.NOT_INITIALIZED, false, .nothing, none⟩ = .ok (OK, s') ∧
      s'.lib = some l' ∧ Pkcs11.getInfo l' = .result (some i) := by
  simp [calls, call, Ctx.start] at h
  obtain ⟨rfl, rfl, rfl, rfl, rfl⟩ := h
  have hc : can = fun _ => true := funext hcan
  subst hc
  exact ⟨theInfo, _, _, rfl, rfl, rfl, rfl⟩

/-! ## C95: arrays provided by the caller -/

/-- **C95, what holds.** The usual two calls work: asked for the number, the token says one, and with an array of one element it writes its interface. -/
theorem C95_two_calls_partial (c : Ctx) (n : Nat) (junk : Iface) :
    ∃ o, call c (.getInterfaceList none (some n)) = .ok (o, c) ∧ o.rv = OK ∧ o.count = some 1 ∧
    ∃ o', call c (.getInterfaceList (some [junk]) o.count) = .ok (o', c) ∧ o'.rv = OK ∧ o'.count = some 1 ∧ o'.ifaces = some [.pkcs11] :=
  ⟨_, rfl, rfl, rfl, _, rfl, rfl, rfl, rfl⟩

/-- **C95 fails.** With an array announced and sized for no interface the token writes behind it, instead of returning BUFFER_TOO_SMALL. -/
theorem C95_small_buffer_ub (c : Ctx) : call c (.getInterfaceList (some []) (some 0)) = .ub ∧
    ∀ on, (specRv on (.getInterfaceList (some []) (some 0))).1 = BUFFER_TOO_SMALL :=
  ⟨rfl, fun _ => rfl⟩

/-- **C95 fails.** The number is not written: with room for more than one interface the caller is told all of it was filled, though everything after the first
element is what the caller had there. -/
theorem C95_count_not_written (c : Ctx) (is : List Iface) (h : 2 ≤ is.length) :
    ∃ o, call c (.getInterfaceList (some is) (some is.length)) = .ok (o, c) ∧ o.rv = OK ∧ o.count = some is.length ∧ o.count ≠ some 1 ∧
      o.ifaces = some (.pkcs11 :: is.tail) := by
  cases is with
  | nil => simp at h
  | cons i is =>
    refine ⟨_, rfl, rfl, rfl, ?_, rfl⟩
    simp at h
    simp
    intro hh; subst hh; simp at h

/-- **C95, interface lists exactly**, for every array and every announced count: the announced count is never looked at; the first place of an
array is overwritten, whatever its length, and an array without places is overrun. -/
theorem C95_interfaces_exact (c : Ctx) (is : List Iface) (n : Nat) :
    (∃ o, call c (.getInterfaceList none (some n)) = .ok (o, c) ∧ o.rv = OK ∧ o.count = some 1 ∧ o.ifaces = none) ∧
    (call c (.getInterfaceList (some is) (some n)) = .ub ↔ is = []) ∧
    (is ≠ [] → ∃ o, call c (.getInterfaceList (some is) (some n)) = .ok (o, c) ∧ o.rv = OK ∧ o.count = some n ∧
      o.ifaces = some (is.set 0 .pkcs11)) ∧
    ∀ a : Option (List Iface), ∃ o, call c (.getInterfaceList a none) = .ok (o, c) ∧ o.rv = ARGUMENTS_BAD ∧ o.ifaces = a ∧ o.count = none := by
  refine ⟨⟨_, rfl, rfl, rfl, rfl⟩, ?_, ?_, fun a => ⟨_, rfl, rfl, rfl, rfl⟩⟩
  · cases is <;> simp [call]
  · intro h
    cases is with
    | nil => exact absurd rfl h
    | cons i is => exact ⟨_, rfl, rfl, rfl, rfl⟩

/-- **C95 fails.** `C_GetSlotList` succeeds without writing the number or the list. -/
theorem C95_slots_not_written (c : Ctx) (l : Option (List Nat)) (n : Option Nat) :
    ∃ o, call c (.getSlotList l n) = .ok (o, c) ∧ o.rv = OK ∧ o.slots = l ∧ o.count = n := ⟨_, rfl, rfl, rfl, rfl⟩

example : Polite false [.getFunctionList true, .start (some 2), .getInfo true, .getInterfaceList none (some 5),
    .getInterfaceList (some [.uninitialized]) (some 1), .finalize] := by
  simp [Polite, polite, specRv]
example : (calls Ctx.start [.finalize, .start none, .getSlotList none (some 77)]) =
    .ok [{ rv := OK }, { rv := ARGUMENTS_BAD }, { rv := OK, count := some 77 }] := by rfl

namespace Flame
open Soft
open Pkcs11 (Rv OK)
example := C94_protocol_partial [.getFunctionList true, .start (some 2), .getInfo true, .finalize] false (by simp [Polite, polite, specRv])
example := C94_protocol_violated [.getFunctionList true, .start (some 2), .finalize] [OK, OK, OK] rfl 2
example := C95_count_not_written Ctx.start [.uninitialized, .uninitialized] (by decide)

namespace Flame.Soft
example := C94_with_library (fun _ => true) (fun _ => rfl) 0 .uninitialized _ _ _ _ _ rfl
end Flame.Soft

end Flame
end Flame
