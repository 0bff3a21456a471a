import Verif.Crypto.SoftDispatch
import Verif.Crypto.CkSpec
import Verif.Crypto.StructsProps

/-!
# C126, C127: what calls of the soft token reach and do
-/

namespace Flame
open SoftTable SoftDispatch Structs CkSpec
open Pkcs11 (Rv OK)

namespace SoftDispatch

/-- The row of an exported function passes all its parameters in order to a callback that is bound to `impl`. -/
def rowOk (name impl : String) (n : Nat) : Bool :=
  match interface.find? (·.name == name) with
  | some r => r.arity == n && r.args == List.range n &&
      match bindings.find? (·.1 == r.callback) with
      | some b => b.2 == impl
      | none => false
  | none => false

theorem rows_ok : ∀ p ∈ served, rowOk p.1 p.2.1 p.2.2 = true := by decide +kernel

theorem mapM_take {V : Type} (vals : List V) : ∀ k, k ≤ vals.length → (List.range k).mapM (vals[·]?) = some (vals.take k)
  | 0, _ => by simp
  | k + 1, h => by
    rw [List.range_succ, List.mapM_append, mapM_take vals k (by omega)]
    have : vals[k]? = some vals[k] := List.getElem?_eq_getElem (by omega)
    simp [this, List.take_succ_eq_append_getElem]

theorem forward_eq {V : Type} {name impl : String} {n : Nat} (h : rowOk name impl n = true) {vals : List V} (hv : vals.length = n) :
    forward name vals = some (impl, vals) := by
  unfold rowOk at h
  unfold forward
  split at h
  · rename_i r hr
    simp only [Bool.and_eq_true, beq_iff_eq] at h
    obtain ⟨⟨h1, h2⟩, h3⟩ := h
    split at h3
    · rename_i b hb
      have hm := mapM_take vals vals.length (Nat.le_refl _)
      simp only [beq_iff_eq] at h3
      simp [hr, hb, h1, h2, h3, hv ▸ hm, hv]
      rw [← hv]; simp
    · cases h3
  · cases h

/-- The functions that do more than return OK (C94). -/
def general : List String := ["general_purpose::initialize", "general_purpose::getInfo", "general_purpose::getFunctionList",
  "general_purpose::getIterfaceList", "general_purpose::getIterface"]

def stubOk (impl : String) (n : Nat) : Bool :=
  match functions.find? (·.name == impl) with
  | some f => f.arity == n && f.stub
  | none => false

theorem stubs_ok : ∀ p ∈ served, p.2.1 ∉ general → stubOk p.2.1 p.2.2 = true := by decide +kernel

def generalOk (impl : String) : Bool :=
  match functions.find? (·.name == impl) with
  | some f => !f.stub
  | none => false

theorem general_ok : ∀ p ∈ served, p.2.1 ∈ general → generalOk p.2.1 = true := by decide +kernel

theorem call_eq {name impl : String} {n : Nat} (h : (name, impl, n) ∈ served) (hg : impl ∉ general) {vals : List Nat} (hv : vals.length = n)
    (m : Mem) : call name vals m = some (OK, m) := by
  have h1 := forward_eq (rows_ok _ h) hv
  have h2 := stubs_ok _ h hg
  unfold stubOk at h2
  simp only [call, h1, Option.bind_eq_bind, Option.bind_some, runStub]
  split at h2
  · rename_i f hf
    simp only [Bool.and_eq_true, beq_iff_eq] at h2
    simp [hf, h2.1, h2.2, hv]
  · cases h2

theorem verdicts_stub : ∀ v ∈ verdicts, ∃ p ∈ served, p.1 = v ∧ p.2.1 ∉ general := by decide +kernel
theorem results_stub : ∀ v ∈ results, ∃ p ∈ served, p.1 = v.1 ∧ p.2.1 ∉ general ∧ v.2 < p.2.2 := by decide +kernel
theorem fields_served : (∀ name ∈ sFunctionList.fields.drop 1, ∃ p ∈ served, p.1 = name) ∧
    (∀ name ∈ list3.fields.drop 1, ∃ p ∈ served, p.1 = name) := by decide +kernel
theorem served_nodup : (served.map (·.1)).Nodup ∧ (served.map (·.2.1)).Nodup := by decide +kernel

end SoftDispatch

/-! ## C126: what a call reaches -/

/-- **C126.** Every exported function reaches the implementation that is to serve it, with all the caller's arguments in the caller's
order. -/
theorem C126_dispatch {V : Type} {name impl : String} {n : Nat} (h : (name, impl, n) ∈ served) (vals : List V) (hv : vals.length = n) :
    forward name vals = some (impl, vals) := forward_eq (rows_ok _ h) hv

example : ("C_GenerateKeyPair", "key::generateKeyPair", 8) ∈ served ∧ [1, 2, 3, 4, 5, 6, 7, 8].length = 8 := by decide +kernel

/-- **C126.** Different functions reach different implementations. -/
theorem C126_distinct {V : Type} {a b x y : String} {n k : Nat} (ha : (a, x, n) ∈ served) (hb : (b, y, k) ∈ served) (hab : a ≠ b)
    (vals vals' : List V) (hv : vals.length = n) (hw : vals'.length = k) :
    (forward a vals).map (·.1) ≠ (forward b vals').map (·.1) := by
  rw [C126_dispatch ha vals hv, C126_dispatch hb vals' hw]
  intro he
  simp only [Option.map_some, Option.some.injEq] at he
  obtain ⟨i, hi, e⟩ := List.getElem_of_mem ha
  obtain ⟨j, hj, e'⟩ := List.getElem_of_mem hb
  have : i = j := by
    refine (List.getElem_inj (xs := served.map (·.2.1)) (h₀ := by simpa using hi) (h₁ := by simpa using hj) served_nodup.2).mp ?_
    simp [e, e', he]
  subst this
  rw [e] at e'
  exact hab (congrArg Prod.fst e')

example : ("C_Sign", "sign::full", 5) ∈ served ∧ ("C_SignMessage", "message::sign", 7) ∈ served ∧ "C_Sign" ≠ "C_SignMessage" := by decide +kernel

/-- **C126.** A caller that takes a function from either list of the token, by its name in the standard, reaches the implementation that is to
serve it; every member of the lists is such a function. -/
theorem C126_lists {V : Type} (version : String) (i : Nat) (hi : 1 ≤ i) :
    (∀ name, sFunctionList.fields[i]? = some name → ∃ impl n, (name, impl, n) ∈ served ∧ ∀ vals : List V, vals.length = n →
      through (sFunctionList.construct (version :: softFunctions)) i vals = .ok (some (impl, vals))) ∧
    (∀ name, list3.fields[i]? = some name → ∃ impl n, (name, impl, n) ∈ served ∧ ∀ vals : List V, vals.length = n →
      through (list3.construct (version :: softFunctions3)) i vals = .ok (some (impl, vals))) := by
  have h := C98_function_lists (V := String) id version i hi
  simp only [List.map_id, id_eq] at h
  have key : ∀ {l : List String} {name : String}, l[i]? = some name → name ∈ l.drop 1 := by
    intro l name hl
    refine List.mem_of_getElem? (i := i - 1) ?_
    rw [List.getElem?_drop, ← hl]
    congr 1; omega
  constructor
  · intro name hn
    obtain ⟨p, hp, rfl⟩ := fields_served.1 name (key hn)
    exact ⟨p.2.1, p.2.2, hp, fun vals hv => by rw [through, h.1 _ hn]; simp only [C126_dispatch hp vals hv]⟩
  · intro name hn
    obtain ⟨p, hp, rfl⟩ := fields_served.2 name (key hn)
    exact ⟨p.2.1, p.2.2, hp, fun vals hv => by rw [through, h.2 _ hn]; simp only [C126_dispatch hp vals hv]⟩

example : sFunctionList.fields[50]? = some "C_Verify" ∧ list3.fields[78]? = some "C_MessageDecryptInit" := by decide +kernel

/-- **C126, violated.** In a copy of the 3.0 list a call of `C_MessageDecryptInit` goes through an indeterminate pointer. -/
theorem C126_copied_list_ub {V : Type} (version : String) (vals : List V) :
    list3.fields[78]? = some "C_MessageDecryptInit" ∧
    through (list3.copy (list3.construct (version :: softFunctions3))) 78 vals = .ub := by
  refine ⟨by decide +kernel, ?_⟩
  have := (C96_list3_violated (fresh (V := String)) (list3.construct (version :: softFunctions3)) 78 (by decide +kernel)).2.2.2
  rw [through, this]; rfl

/-! ## C127: what the implementations do -/

/-- **C127, exact.** The functions of the token that answer OK to every call and change nothing are all but five. -/
theorem C127_nothing_violated {name impl : String} {n : Nat} (h : (name, impl, n) ∈ served) (vals : List Nat)
    (hv : vals.length = n) (m : Mem) : call name vals m = if impl ∈ general then none else some (OK, m) := by
  split
  · rename_i hg
    have h1 := forward_eq (rows_ok _ h) hv
    have h2 := general_ok _ h hg
    unfold generalOk at h2
    simp only [call, h1, Option.bind_eq_bind, Option.bind_some, runStub]
    split at h2
    · rename_i f hf
      simp only [Bool.not_eq_true'] at h2
      simp [hf, h2]
    · cases h2
  · rename_i hg
    exact call_eq h hg hv m

example : ("C_Verify", "verify::full", 5) ∈ served ∧ "verify::full" ∉ general ∧ (served.filter (·.2.1 ∉ general)).length = 87 := by decide +kernel

/-- **C127, violated.** A verdict of the token is worth nothing: whatever is to be decided about signatures, PINs and users, if anything is to be
refused, the token accepts something that is to be refused. -/
theorem C127_verdict_violated {name : String} (h : name ∈ verdicts) :
    ∃ n, ∀ valid : List Nat → Mem → Prop, (∃ vals m, vals.length = n ∧ ¬ valid vals m) →
      ¬ ∀ vals m, vals.length = n → ((∃ m', call name vals m = some (OK, m')) ↔ valid vals m) := by
  obtain ⟨⟨_, impl, n⟩, hp, rfl, hg⟩ := verdicts_stub name h
  refine ⟨n, ?_⟩
  rintro valid ⟨vals, m, hl, hn⟩ hc
  exact hn ((hc vals m hl).mp ⟨m, call_eq hp hg hl m⟩)

example : "C_Verify" ∈ verdicts ∧ "C_Login" ∈ verdicts := by decide +kernel

/-- **C127, violated.** A result of the token is worth nothing: where OK promises a result (a session, a key, a signature's length, random bytes),
for every result there is a memory in which the caller finds something else. -/
theorem C127_result_violated {name : String} {pos : Nat} (h : (name, pos) ∈ results) :
    ∃ n, pos < n ∧ ∀ vals : List Nat, vals.length = n → ∀ (p : Nat), vals[pos]? = some p → ∀ promised : Nat,
      ∃ m m', call name vals m = some (OK, m') ∧ m' p ≠ promised := by
  obtain ⟨⟨_, impl, n⟩, hp, rfl, hg, hlt⟩ := results_stub _ h
  refine ⟨n, hlt, fun vals hl p _ promised => ⟨fun _ => promised + 1, fun _ => promised + 1, call_eq hp hg hl _, ?_⟩⟩
  simp

example : ("C_OpenSession", 4) ∈ results ∧ ("C_GenerateRandom", 1) ∈ results := by decide +kernel

/-- **C127, violated.** No order of calls is ever refused: any history of these functions (final parts without beginnings, logging out without
logging in, closing what was never opened) is answered OK throughout. -/
theorem C127_history_violated (cs : List (String × List Nat))
    (h : ∀ c ∈ cs, ∃ impl n, (c.1, impl, n) ∈ served ∧ impl ∉ general ∧ c.2.length = n) (m : Mem) :
    calls cs m = some (List.replicate cs.length OK, m) := by
  induction cs with
  | nil => rfl
  | cons c cs ih =>
    obtain ⟨impl, n, h1, h2, h3⟩ := h c (by simp)
    simp [calls, call_eq h1 h2 h3 m, ih (fun c hc => h c (List.mem_cons_of_mem _ hc)), List.replicate_succ]

example : ∀ c ∈ [("C_Logout", [7]), ("C_SignFinal", [7, 0, 0])], ∃ impl n, (c.1, impl, n) ∈ served ∧ impl ∉ general ∧ c.2.length = n := by
  intro c hc
  simp only [List.mem_cons, List.not_mem_nil, or_false] at hc
  rcases hc with rfl | rfl
  · exact ⟨"session::logout", 1, by decide +kernel⟩
  · exact ⟨"sign::final", 3, by decide +kernel⟩

end Flame
