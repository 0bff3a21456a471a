import Verif.Crypto.StructTable

/-! # C96, C97: PKCS#11 structures -/

namespace Flame
open Structs

namespace Structs
variable {V : Type}

/-- A member not assigned keeps its value. -/
theorem fold_not_mem (g : Nat → Option V) (l : List (Nat × Nat)) (o : Obj V) (f : Nat) (h : f ∉ l.map (·.1)) :
    (l.foldl (fun o p => store o p.1 (g p.2)) o) f = o f := by
  induction l generalizing o with
  | nil => rfl
  | cons p l ih =>
    simp only [List.map_cons, List.mem_cons, not_or] at h
    rw [List.foldl_cons, ih _ h.2]
    simp [store, h.1]

/-- A member assigned once gets the value. -/
theorem fold_mem (g : Nat → Option V) (l : List (Nat × Nat)) (o : Obj V) (f x : Nat) (hn : (l.map (·.1)).Nodup) (h : (f, x) ∈ l) :
    (l.foldl (fun o p => store o p.1 (g p.2)) o) f = g x := by
  induction l generalizing o with
  | nil => cases h
  | cons p l ih =>
    rw [List.map_cons, List.nodup_cons] at hn
    rw [List.foldl_cons]
    rcases List.mem_cons.mp h with h | h
    · subst h
      rw [fold_not_mem _ _ _ _ hn.1]
      simp [store]
    · exact ih _ hn.2 h

/-- Every member is assigned from itself, once, and nothing else. -/
def Rec.copiesAll (r : Rec) : Bool := decide (r.assigns.map (·.1)).Nodup && (List.range r.fields.length).all fun i => decide ((i, i) ∈ r.assigns)

/-- Every parameter goes to the member it is declared for, once. -/
def Rec.storesAll (r : Rec) : Bool :=
  decide (r.ctor.map (·.1)).Nodup && (List.range r.params.length).all fun i => match r.params[i]? with
    | some f => decide ((f, i) ∈ r.ctor)
    | none => false

/-- Every member has a parameter. -/
def Rec.paramForEach (r : Rec) : Bool := (List.range r.fields.length).all fun f => decide (f ∈ r.params)

theorem assign_of_copiesAll {r : Rec} (h : r.copiesAll = true) (t s : Obj V) {i : Nat} (hi : i < r.fields.length) : r.assign t s i = s i := by
  simp only [Rec.copiesAll, Bool.and_eq_true, decide_eq_true_eq, List.all_eq_true] at h
  exact fold_mem s _ _ _ _ h.1 (h.2 i (List.mem_range.mpr hi))

theorem construct_of_storesAll {r : Rec} (h : r.storesAll = true) (args : List V) {i f : Nat} (hf : r.params[i]? = some f) :
    r.construct args f = args[i]? := by
  simp only [Rec.storesAll, Bool.and_eq_true, decide_eq_true_eq, List.all_eq_true] at h
  have hi : i < r.params.length := by
    rw [List.getElem?_eq_some_iff] at hf
    exact hf.1
  have := h.2 i (List.mem_range.mpr hi)
  rw [hf] at this
  simp only [decide_eq_true_eq] at this
  exact fold_mem (fun k => args[k]?) _ _ _ _ h.1 this

/-- The two wrappers whose assignment forgets a member. -/
def kdf : Rec := sNistSp800Hyphen108KdfParams
def list3 : Rec := sFunctionList3

/-- The wrappers with complete assignments. -/
def complete (r : Rec) : Prop := r.name ≠ "NistSp800Hyphen108KdfParams" ∧ r.name ≠ "FunctionList3"

instance (r : Rec) : Decidable (complete r) := inferInstanceAs (Decidable (_ ∧ _))

theorem table_copies : ∀ r ∈ table, complete r → r.copiesAll = true := by decide +kernel
theorem table_stores : ∀ r ∈ table, r.storesAll = true := by decide +kernel
theorem table_params : ∀ r ∈ table, r.name ≠ "NistSp800Hyphen108KdfParams" → r.paramForEach = true := by decide +kernel
theorem table_params_length : ∀ r ∈ table, ∀ f ∈ r.params, f < r.fields.length := by decide +kernel

/-- `r` has the assignments of a complete wrapper except the one to member `f`. -/
def Rec.forgets (r : Rec) (f : Nat) : Bool :=
  decide (r.assigns.map (·.1)).Nodup && decide (f ∉ r.assigns.map (·.1)) &&
    (List.range r.fields.length).all fun i => decide (i = f ∨ (i, i) ∈ r.assigns)

theorem assign_of_forgets {r : Rec} {f : Nat} (h : r.forgets f = true) (t s : Obj V) {i : Nat} (hi : i < r.fields.length) :
    r.assign t s i = if i = f then t i else s i := by
  simp only [Rec.forgets, Bool.and_eq_true, decide_eq_true_eq, List.all_eq_true] at h
  obtain ⟨⟨h1, h2⟩, h3⟩ := h
  by_cases hif : i = f
  · rw [if_pos hif]; subst hif; exact fold_not_mem s _ _ _ h2
  · rw [if_neg hif]
    exact fold_mem s _ _ _ _ h1 ((h3 i (List.mem_range.mpr hi)).resolve_left hif)

theorem mem_kdf : kdf ∈ table := by simp [table, kdf]
theorem mem_list3 : list3 ∈ table := by simp [table, list3]

end Structs

variable {V : Type}

/-! ## C96: copies -/

/-- **C96, what holds.** For every wrapper but two, every source and every target: after assignment every member of the target is the source's,
and a copy has the source's members; assigning an object to itself changes nothing. -/
theorem C96_copy_partial (r : Rec) (hr : r ∈ table) (hc : complete r) (t s : Obj V) (i : Nat) (hi : i < r.fields.length) :
    r.assign t s i = s i ∧ r.copy s i = s i ∧ r.assign t t i = t i := by
  have h := table_copies r hr hc
  exact ⟨assign_of_copiesAll h t s hi, assign_of_copiesAll h _ s hi, assign_of_copiesAll h t t hi⟩

/-- **C96 fails.** `NistSp800Hyphen108KdfParams` never copies `prfType`: assignment keeps the target's, a copy has an indeterminate one; the other members are
copied. -/
theorem C96_kdf_violated (t s : Obj V) (i : Nat) (hi : i < kdf.fields.length) :
    kdf ∈ table ∧ kdf.fields[0]? = some "prfType" ∧
    kdf.assign t s i = (if i = 0 then t i else s i) ∧ kdf.copy s i = if i = 0 then none else s i := by
  have h : kdf.forgets 0 = true := by decide +kernel
  exact ⟨mem_kdf, by decide +kernel, assign_of_forgets h t s hi, assign_of_forgets h fresh s hi⟩

/-- **C96 fails.** `FunctionList3` never copies `C_MessageDecryptInit`: in a copied list that function pointer is indeterminate, after an assignment it is the
old one. -/
theorem C96_list3_violated (t s : Obj V) (i : Nat) (hi : i < list3.fields.length) :
    list3 ∈ table ∧ list3.fields[78]? = some "C_MessageDecryptInit" ∧
    list3.assign t s i = (if i = 78 then t i else s i) ∧ list3.copy s i = if i = 78 then none else s i := by
  have h : list3.forgets 78 = true := by decide +kernel
  exact ⟨mem_list3, by decide +kernel, assign_of_forgets h t s hi, assign_of_forgets h fresh s hi⟩

/-! ## C97: construction -/

/-- **C97, constructor.** For every wrapper, each argument of the value constructor ends up in the member its parameter is declared for. -/
theorem C97_constructor (r : Rec) (hr : r ∈ table) (args : List V) (i f : Nat) (hf : r.params[i]? = some f) :
    r.construct args f = args[i]? := construct_of_storesAll (table_stores r hr) args hf

/-- **C97, what holds.** For every wrapper but one, an object constructed from values has no indeterminate member. -/
theorem C97_all_set_partial (r : Rec) (hr : r ∈ table) (hc : r.name ≠ "NistSp800Hyphen108KdfParams") (args : List V) (ha : args.length = r.params.length)
    (f : Nat) (hf : f < r.fields.length) : ∃ v, r.construct args f = some v := by
  have h := table_params r hr hc
  simp only [Rec.paramForEach, List.all_eq_true, decide_eq_true_eq] at h
  obtain ⟨i, hi, he⟩ := List.getElem_of_mem (h f (List.mem_range.mpr hf))
  have hp : r.params[i]? = some f := by rw [List.getElem?_eq_getElem hi, he]
  exact ⟨args[i], by rw [C97_constructor r hr args i f hp, List.getElem?_eq_getElem]⟩

/-- **C97 fails.** The value constructor of `NistSp800Hyphen108KdfParams` has no parameter for `prfType` and leaves it indeterminate. -/
theorem C97_kdf_violated (args : List V) : kdf ∈ table ∧ kdf.construct args 0 = none :=
  ⟨mem_kdf, fold_not_mem _ _ _ _ (by decide +kernel)⟩

/-- **C97, default constructor.** Where it starts from `Parent{}` every copied member is zero; elsewhere every member is indeterminate. -/
theorem C97_default_exact (r : Rec) (hr : r ∈ table) (zero : V) (i : Nat) (hi : i < r.fields.length) :
    (r.zeroed = true → complete r → r.default zero i = some zero) ∧ (r.zeroed = false → r.default zero i = none) := by
  refine ⟨?_, ?_⟩
  · intro hz hc
    simp only [Rec.default, hz, if_true]
    exact assign_of_copiesAll (table_copies r hr hc) _ _ hi
  · intro hz
    simp [Rec.default, hz, fresh]

/-- **C97 fails.** 67 of the 86 wrappers leave every member of a default constructed object indeterminate; and a default constructed `FunctionList3` has an
indeterminate `C_MessageDecryptInit`. -/
theorem C97_default_violated : (table.filter fun r => !r.zeroed).length = 67 ∧ table.length = 86 ∧
    ∀ (zero : V), list3.zeroed = true ∧ list3.default zero 78 = none := by
  refine ⟨by decide +kernel, by decide +kernel, fun zero => ⟨by decide +kernel, ?_⟩⟩
  have hz : list3.zeroed = true := by decide +kernel
  simp only [Rec.default, hz, if_true]
  have hn : 78 ∉ list3.assigns.map (·.1) := by decide +kernel
  exact fold_not_mem (fun _ => some zero) _ _ _ hn

/-! ## C98: function lists -/

/-- **C98.** In both function lists of the soft token, as constructed, every entry is the function of its name — for whatever functions stand behind the
names. -/
theorem C98_function_lists (impl : String → V) (version : V) (i : Nat) (hi : 1 ≤ i) :
    (∀ name, sFunctionList.fields[i]? = some name → sFunctionList.construct (version :: softFunctions.map impl) i = some (impl name)) ∧
    (∀ name, list3.fields[i]? = some name → list3.construct (version :: softFunctions3.map impl) i = some (impl name)) := by
  have hp : sFunctionList.params = List.range 69 := by decide +kernel
  have hp3 : list3.params = List.range 93 := by decide +kernel
  have hf : sFunctionList.fields = "version" :: softFunctions := by decide +kernel
  have hf3 : list3.fields = "version" :: softFunctions3 := by decide +kernel
  have hl : softFunctions.length = 68 := by decide +kernel
  have hl3 : softFunctions3.length = 92 := by decide +kernel
  have hm : sFunctionList ∈ table := by simp [table]
  obtain ⟨k, rfl⟩ : ∃ k, i = k + 1 := ⟨i - 1, by omega⟩
  constructor
  · intro name hn
    rw [hf, List.getElem?_cons_succ] at hn
    have hk := (List.getElem?_eq_some_iff.mp hn).1
    rw [C97_constructor _ hm _ (k + 1) (k + 1) (by rw [hp, List.getElem?_range (by omega)]), List.getElem?_cons_succ, List.getElem?_map, hn]
    rfl
  · intro name hn
    rw [hf3, List.getElem?_cons_succ] at hn
    have hk := (List.getElem?_eq_some_iff.mp hn).1
    rw [C97_constructor _ mem_list3 _ (k + 1) (k + 1) (by rw [hp3, List.getElem?_range (by omega)]), List.getElem?_cons_succ, List.getElem?_map, hn]
    rfl

/-- **C98 fails.** Once the version 3 list is copied (for instance when the list is returned by value without elision), `C_MessageDecryptInit` is
indeterminate, whatever it was. -/
theorem C98_copied_list_violated (impl : String → V) (version : V) :
    let l := list3.construct (version :: softFunctions3.map impl)
    l 78 = some (impl "C_MessageDecryptInit") ∧ list3.copy l 78 = none := by
  refine ⟨(C98_function_lists impl version 78 (by decide)).2 _ (by decide +kernel), ?_⟩
  exact (C96_list3_violated fresh _ 78 (by decide +kernel)).2.2.2

example : complete sTokenInfo ∧ sTokenInfo ∈ table ∧ 18 ≤ sTokenInfo.fields.length := by
  refine ⟨by decide +kernel, by simp [table], by decide +kernel⟩
example : sVersion.assign (fun _ => some 9) (fun i => some (i + 1)) 1 = some 2 := by decide +kernel
example : sDate.construct ["y", "m", "d"] 2 = some "d" := by decide +kernel

/-! The theorems at concrete structures. -/

theorem Structs.tokenInfo_mem : sTokenInfo ∈ table := by simp [table]

example := C96_copy_partial sTokenInfo tokenInfo_mem (by decide +kernel) (fun i => some i) (fun i => some (i + 100)) 7 (by decide +kernel)
example := C96_kdf_violated (fun i => some i) (fun i => some (i + 100)) 2 (by decide +kernel)
example := C96_list3_violated (fun i => some i) (fun i => some (i + 100)) 78 (by decide +kernel)
example := C97_constructor sTokenInfo tokenInfo_mem (List.range 18) 2 2 (by decide +kernel)
example := C97_all_set_partial sTokenInfo tokenInfo_mem (by decide +kernel) (List.range sTokenInfo.params.length) (by decide +kernel) 3 (by decide +kernel)
example := C97_default_exact sTokenInfo tokenInfo_mem 0 3 (by decide +kernel)
example := C98_function_lists (fun name => name.length) 3 5 (by decide)

end Flame
