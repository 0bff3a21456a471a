import Verif.Crypto.Enums

/-!
# C129, C130: flags and enumerators of the PKCS#11 wrapper
-/

namespace Flame.PkEnum

/-- The flags of an enumeration that stand for something: those that are not zero. -/
def flagsOf (E : EnumDef) : List Nat := (E.values.map (·.2)).filter (· ≠ 0)

/-- Every such flag is one bit. -/
def OneBit (E : EnumDef) : Prop := ∀ v ∈ flagsOf E, ∃ i, i < E.bits ∧ v = 2 ^ i

theorem oneBit_of {E : EnumDef} (h : (flagsOf E).all (fun v => (List.range E.bits).any fun i => v == 2 ^ i) = true) : OneBit E := by
  intro v hv
  have := List.all_eq_true.mp h v hv
  obtain ⟨i, hi, e⟩ := List.any_eq_true.mp this
  exact ⟨i, List.mem_range.mp hi, by simpa using e⟩

theorem table_oneBit : ∀ E ∈ table, E.flags = true → OneBit E := by
  have h : table.all (fun E => !E.flags || (flagsOf E).all (fun v => (List.range E.bits).any fun i => v == 2 ^ i)) = true := by decide +kernel
  intro E hE hf
  have := List.all_eq_true.mp h E hE
  rw [hf] at this
  exact oneBit_of (by simpa using this)

theorem foldl_testBit {E : EnumDef} (fs : List Nat) (hfs : ∀ v ∈ fs, ∃ i, i < E.bits ∧ v = 2 ^ i) (a : Nat) (i : Nat) (hi : i < E.bits) :
    (fs.foldl (bor E) a).testBit i = (a.testBit i || decide (2 ^ i ∈ fs)) := by
  induction fs generalizing a with
  | nil => simp
  | cons v fs ih =>
    rw [List.foldl_cons, ih (fun w hw => hfs w (List.mem_cons_of_mem _ hw))]
    obtain ⟨j, hj, rfl⟩ := hfs v List.mem_cons_self
    simp only [bor, Nat.testBit_mod_two_pow, hi, decide_true, Bool.true_and, Nat.testBit_or, Nat.testBit_two_pow, List.mem_cons]
    have : (2 ^ i = 2 ^ j) ↔ j = i := ⟨fun h => ((Nat.pow_right_inj (by omega)).mp h).symm, fun h => by rw [h]⟩
    by_cases h : j = i <;> simp [this, h]

theorem combine_testBit {E : EnumDef} (fs : List Nat) (hfs : ∀ v ∈ fs, ∃ i, i < E.bits ∧ v = 2 ^ i) (i : Nat) (hi : i < E.bits) :
    (combine E fs).testBit i = decide (2 ^ i ∈ fs) := by
  rw [combine, foldl_testBit fs hfs 0 i hi]; simp

theorem band_two_pow {E : EnumDef} (x : Nat) {i : Nat} (hi : i < E.bits) : band E x (2 ^ i) = if x.testBit i then 2 ^ i else 0 := by
  apply Nat.eq_of_testBit_eq
  intro j
  simp only [band, Nat.testBit_mod_two_pow, Nat.testBit_and, Nat.testBit_two_pow]
  by_cases h : i = j
  · subst h; cases hx : x.testBit i <;> simp [hi]
  · cases hx : x.testBit i <;> simp [h]

/-- **C129**: for every flag enumeration and every list of its flags, both tests find exactly the flags that were combined. -/
theorem C129_membership {E : EnumDef} (hE : E ∈ table) (hf : E.flags = true) {fs : List Nat} (hfs : ∀ v ∈ fs, v ∈ flagsOf E) {f : Nat}
    (h : f ∈ flagsOf E) : (has E (combine E fs) f = true ↔ f ∈ fs) ∧ (any E (combine E fs) f = true ↔ f ∈ fs) := by
  have ob := table_oneBit E hE hf
  obtain ⟨i, hi, rfl⟩ := ob f h
  have hb := combine_testBit fs (fun v hv => ob v (hfs v hv)) i hi
  have hp : (0 : Nat) < 2 ^ i := Nat.two_pow_pos i
  unfold has any
  rw [band_two_pow _ hi, hb]
  by_cases hm : 2 ^ i ∈ fs
  · simp [hm]
  · simp [hm]; omega

example : eTokenInfoFlags ∈ table ∧ eTokenInfoFlags.flags = true ∧ (∀ v ∈ [4, 0x20], v ∈ flagsOf eTokenInfoFlags) ∧
    8 ∈ flagsOf eTokenInfoFlags ∧ combine eTokenInfoFlags [4, 0x20] = 0x24 := by
  refine ⟨by simp [table], rfl, by decide +kernel, by decide +kernel, by decide +kernel⟩

/-- **C129**: two combinations are equal exactly if they were made of the same flags. -/
theorem C129_injective {E : EnumDef} (hE : E ∈ table) (hf : E.flags = true) {fs gs : List Nat} (hfs : ∀ v ∈ fs, v ∈ flagsOf E)
    (hgs : ∀ v ∈ gs, v ∈ flagsOf E) : combine E fs = combine E gs ↔ ∀ v, v ∈ fs ↔ v ∈ gs := by
  constructor
  · intro h v
    constructor
    · intro hv
      exact (C129_membership hE hf hgs (hfs v hv)).1.mp (h ▸ (C129_membership hE hf hfs (hfs v hv)).1.mpr hv)
    · intro hv
      exact (C129_membership hE hf hfs (hgs v hv)).1.mp (h ▸ (C129_membership hE hf hgs (hgs v hv)).1.mpr hv)
  · intro h
    have ob := table_oneBit E hE hf
    have lt : ∀ l : List Nat, combine E l < 2 ^ E.bits := by
      intro l
      have : ∀ (l : List Nat) a, a < 2 ^ E.bits → l.foldl (bor E) a < 2 ^ E.bits := by
        intro l
        induction l with
        | nil => exact fun a h => h
        | cons v l ih => exact fun a _ => ih _ (Nat.mod_lt _ (Nat.two_pow_pos _))
      exact this l 0 (Nat.two_pow_pos _)
    apply Nat.eq_of_testBit_eq
    intro i
    by_cases hi : i < E.bits
    · rw [combine_testBit fs (fun v hv => ob v (hfs v hv)) i hi, combine_testBit gs (fun v hv => ob v (hgs v hv)) i hi]
      simp [h]
    · have big : ∀ l : List Nat, (combine E l).testBit i = false := fun l =>
        Nat.testBit_lt_two_pow (Nat.lt_of_lt_of_le (lt l) (Nat.pow_le_pow_right (by omega) (by omega)))
      rw [big, big]

/-- **C129**: what a combination keeps of another is what they share. -/
theorem C129_intersection {E : EnumDef} (hE : E ∈ table) (hf : E.flags = true) {fs gs : List Nat} (hfs : ∀ v ∈ fs, v ∈ flagsOf E)
    (hgs : ∀ v ∈ gs, v ∈ flagsOf E) {f : Nat} (h : f ∈ flagsOf E) :
    has E (band E (combine E fs) (combine E gs)) f = true ↔ f ∈ fs ∧ f ∈ gs := by
  have ob := table_oneBit E hE hf
  obtain ⟨i, hi, rfl⟩ := ob f h
  have hp : (0 : Nat) < 2 ^ i := Nat.two_pow_pos i
  have : (band E (combine E fs) (combine E gs)).testBit i = (decide (2 ^ i ∈ fs) && decide (2 ^ i ∈ gs)) := by
    rw [band, Nat.testBit_mod_two_pow, Nat.testBit_and, combine_testBit fs (fun v hv => ob v (hfs v hv)) i hi,
      combine_testBit gs (fun v hv => ob v (hgs v hv)) i hi]
    simp [hi]
  unfold has
  rw [band_two_pow _ hi, this]
  by_cases h1 : 2 ^ i ∈ fs <;> by_cases h2 : 2 ^ i ∈ gs <;> simp [h1, h2] <;> omega

example : has eTokenInfoFlags (band eTokenInfoFlags (combine eTokenInfoFlags [1, 4]) (combine eTokenInfoFlags [4, 8])) 4 = true := by
  decide +kernel

/-- **C129 violated** for the enumerators that are zero (`InterfaceFlags::NONE`, `FunctionListFlags::NULL_VALUE`,
`WaitForSlotEventFlags::DO_BLOCK`): one test always finds them, the other never does, whatever was combined. -/
theorem C129_zero_violated (E : EnumDef) (fs : List Nat) : has E (combine E fs) 0 = true ∧ any E (combine E fs) 0 = false := by
  simp [has, any, band]

/-- Which those are. -/
theorem C129_zero_which :
    (table.filter (·.flags)).flatMap (fun E => (E.values.filter (·.2 = 0)).map fun v => (E.name, v.1)) =
      [("InterfaceFlags", "NONE"), ("FunctionListFlags", "NULL_VALUE"), ("WaitForSlotEventFlags", "DO_BLOCK")] := by
  decide +kernel

/-! ## C130 -/

/-- **C130**: in every enumeration but three the enumerators have different values, so that the value tells which one it is. -/
theorem C130_distinct_partial {E : EnumDef} (hE : E ∈ table) (hn : E.name ∉ ["Version", "SpecialValue", "Attribute"]) {a b : String × Nat}
    (ha : a ∈ E.values) (hb : b ∈ E.values) (h : a.2 = b.2) : a = b := by
  have t : table.all (fun E => ["Version", "SpecialValue", "Attribute"].contains E.name || decide ((E.values.map (·.2)).Nodup)) = true := by
    decide +kernel
  have := List.all_eq_true.mp t E hE
  have nd : (E.values.map (·.2)).Nodup := by
    rcases Bool.or_eq_true_iff.mp this with h | h
    · exact absurd (by simpa using h) hn
    · simpa using h
  obtain ⟨i, hi, rfl⟩ := List.mem_iff_getElem.mp ha
  obtain ⟨j, hj, rfl⟩ := List.mem_iff_getElem.mp hb
  have : i = j := (List.getElem_inj (h₀ := by simpa using hi) (h₁ := by simpa using hj) nd).mp (by simpa using h)
  subst this; rfl

example : eMechanism ∈ table ∧ eMechanism.name ∉ ["Version", "SpecialValue", "Attribute"] ∧ eMechanism.values.length = 417 :=
  ⟨by simp [table], by decide +kernel, by decide +kernel⟩

/-- **C130 violated** in the other three: the enumerators that cannot be told apart. -/
theorem C130_shared_violated :
    [eVersion, eSpecialValue, eAttribute].flatMap (fun E => E.values.flatMap fun a => (E.values.filter fun b => a.2 == b.2 && a.1 != b.1).map fun b => (E.name, a.1, b.1)) =
      [("Version", "MINOR", "AMENDMENT"), ("Version", "AMENDMENT", "MINOR"),
       ("SpecialValue", "EFFECTIVELY_INFINITE", "INVALID_HANDLE"), ("SpecialValue", "INVALID_HANDLE", "EFFECTIVELY_INFINITE"),
       ("Attribute", "SUBPRIME_BITS", "SUB_PRIME_BITS"), ("Attribute", "SUB_PRIME_BITS", "SUBPRIME_BITS")] := by
  decide +kernel

/-- **C130**: every value is representable in the underlying type, and all but CK_UNAVAILABLE_INFORMATION also where CK_ULONG has 32 bits. -/
theorem C130_fits {E : EnumDef} (hE : E ∈ table) {a : String × Nat} (ha : a ∈ E.values) :
    a.2 < 2 ^ E.bits ∧ (a.2 < 2 ^ 32 ∨ a = ("UNAVAILABLE_INFORMATION", 2 ^ 64 - 1)) := by
  have t : table.all (fun E => E.values.all fun a => decide (a.2 < 2 ^ E.bits) && (decide (a.2 < 2 ^ 32) || a == ("UNAVAILABLE_INFORMATION", 2 ^ 64 - 1))) = true := by
    decide +kernel
  have := List.all_eq_true.mp (List.all_eq_true.mp t E hE) a ha
  simpa using this

namespace Flame.PkEnum
example := C129_injective (E := eTokenInfoFlags) (by simp [table]) (by decide +kernel) (fs := [4, 0x20]) (gs := [8]) (by decide +kernel) (by decide +kernel)
example := C130_fits (E := eMechanism) (by simp [table]) (a := eMechanism.values[3]'(by decide +kernel)) (List.getElem_mem _)
end Flame.PkEnum

end Flame.PkEnum
