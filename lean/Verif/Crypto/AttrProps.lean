import Verif.Crypto.AttrTable

/-! # C194: wrapping an attribute of a PKCS#11 object -/

namespace Flame.PkAttr
open TypeList (Ct)
open PkEnum

/-- The attributes whose trait names a type. -/
def Typed (l : List Trait) (v : Nat) (t : VT) : Prop := ∃ x ∈ l, value x.name = some v ∧ x.tag = none ∧ x.type = t ∧ t ≠ .void

/-- No two specialisations are for the same attribute and tag: the header would not compile. -/
def NoRedefinition (l : List Trait) : Prop := (l.map fun t => (value t.name, t.tag)).Nodup

/-- C194 (violated): `wrapper::Attribute` compiles for no attribute, whatever the traits are: those with a value type fail the assertion,
those without one would need a member of type `void`. -/
theorem C194_no_wrapper_violated (l : List Trait) (v : Nat) : instantiate l v = .error := by
  unfold instantiate
  cases select l v none with
  | none => rfl
  | some t => by_cases h : t.type = .void <;> simp [h]

example : instantiate traits 0 = .error := C194_no_wrapper_violated traits 0
/-- `CLASS` names a type. -/
example : (select traits 0 none).map (·.type) = some (.enum "ObjectClass") := by decide +kernel

/-- C194: the table is in order: every trait is for an enumerator, and no attribute has two. -/
theorem C194_table : NoRedefinition traits ∧ ∀ t ∈ traits, (value t.name).isSome := by
  constructor
  · unfold NoRedefinition
    decide +kernel
  · decide +kernel

/-- C194: every enumerator has a trait. -/
theorem C194_every_enumerator : ∀ e ∈ eAttribute.values, ∃ t ∈ traits, value t.name = some e.2 ∧ t.tag = none := by decide +kernel

/-- Selecting finds what the table has. -/
theorem select_iff {l : List Trait} (hn : NoRedefinition l) {v : Nat} {tag : Option String} {t : Trait} :
    select l v tag = some t ↔ t ∈ l ∧ value t.name = some v ∧ t.tag = tag := by
  unfold select
  induction l with
  | nil => simp
  | cons a l ih =>
    unfold NoRedefinition at hn ih
    rw [List.map_cons, List.nodup_cons] at hn
    by_cases h : value a.name = some v ∧ a.tag = tag
    · rw [List.find?_cons_of_pos (by simpa using h), Option.some.injEq]
      constructor
      · rintro rfl
        exact ⟨List.mem_cons_self, h⟩
      · rintro ⟨hm, h1, h2⟩
        rcases List.mem_cons.1 hm with rfl | hm
        · rfl
        · exfalso
          apply hn.1
          rw [List.mem_map]
          exact ⟨t, hm, by rw [h1, h2, h.1, h.2]⟩
    · rw [List.find?_cons_of_neg (by simpa using h), ih hn.2]
      constructor
      · rintro ⟨hm, h1⟩
        exact ⟨List.mem_cons_of_mem _ hm, h1⟩
      · rintro ⟨hm, h1⟩
        rcases List.mem_cons.1 hm with rfl | hm
        · exact absurd h1 h
        · exact ⟨hm, h1⟩

/-- C194, with the assertion that was meant: the wrapper of an attribute compiles exactly if its trait names a type, and holds a value of that
type. -/
theorem C194_meant_exact {l : List Trait} (hn : NoRedefinition l) (v : Nat) (t : VT) : instantiateMeant l v = .val t ↔ Typed l v t := by
  unfold instantiateMeant Typed
  constructor
  · intro h
    cases hs : select l v none with
    | none => rw [hs] at h; cases h
    | some x =>
      rw [hs] at h
      have := (select_iff hn).1 hs
      by_cases hv : x.type = .void
      · simp [hv] at h
      · simp [hv] at h
        subst h
        exact ⟨x, this.1, this.2.1, this.2.2, rfl, hv⟩
  · rintro ⟨x, hx, h1, h2, h3, h4⟩
    rw [(select_iff hn).2 ⟨hx, h1, h2⟩]
    simp [h3, h4]

example : instantiateMeant traits 0x110 = .val .date := (C194_meant_exact C194_table.1 0x110 .date).2
  ⟨⟨"START_DATE", none, .date⟩, by decide +kernel, by decide +kernel, rfl, rfl, by decide⟩

/-- C194: even then 84 of the 106 attributes have no value type. -/
theorem C194_untyped_violated : ((traits.filter fun t => t.tag = none ∧ t.type = .void).length = 84) ∧ (traits.filter fun t => t.tag = none).length = 106 := by
  decide +kernel

/-- The modulus of an RSA key, for instance. -/
example : instantiateMeant traits 0x120 = .error := by decide +kernel

end Flame.PkAttr
