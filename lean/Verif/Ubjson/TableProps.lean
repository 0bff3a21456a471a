import Verif.Ubjson.Table

/-!
# C162: what the UBJSON tables say

The specification is the table of the format's types (ubjson.org, draft 12, "Value Types"): one character per type, a closing character for the
two containers, and whether anything follows the marker.
-/

namespace Flame.Ubjson

/-- One row of the format's table. -/
structure Row where
  kind : Kind
  opening : Char
  closing : Option Char
  /-- something follows the marker before the next value -/
  follows : Bool
  /-- width of what follows, where it is fixed -/
  bits : Option Nat

/-- The format. -/
def format : List Row :=
  [ ⟨.nullval, 'Z', none, false, none⟩, ⟨.noop, 'N', none, false, none⟩, ⟨.true, 'T', none, false, none⟩, ⟨.false, 'F', none, false, none⟩,
    ⟨.int8, 'i', none, true, some 8⟩, ⟨.uint8, 'U', none, true, some 8⟩, ⟨.int16, 'I', none, true, some 16⟩, ⟨.int32, 'l', none, true, some 32⟩,
    ⟨.int64, 'L', none, true, some 64⟩, ⟨.float32, 'd', none, true, some 32⟩, ⟨.float64, 'D', none, true, some 64⟩,
    ⟨.hugeNum, 'H', none, true, none⟩, ⟨.char, 'C', none, true, some 8⟩, ⟨.string, 'S', none, true, none⟩,
    ⟨.array, '[', some ']', true, none⟩, ⟨.object, '{', some '}', true, none⟩ ]

/-- The width a payload type has. -/
def Rep.width : Rep → Option Nat
  | .signed b | .unsigned b | .float b => some b
  | .char => some 8
  | _ => Option.none

end Flame.Ubjson

namespace Flame
open Ubjson

/-- **C162 (markers).** Every type of the format has its opening and closing marker and a payload type of the format's width, and no two types share
a marker; a type without a closing marker answers the error marker, which is no character of the format. -/
theorem C162_markers_partial :
    (∀ k, ∃ r ∈ format, r.kind = k) ∧
    (∀ r ∈ format, (traits r.kind).marker.byte = r.opening.toNat ∧ (traits r.kind).rep.width = r.bits ∧
      (traits r.kind).close.byte = (r.closing.map Char.toNat).getD Marker.error.byte) ∧
    (∀ m n : Marker, m.byte = n.byte → m = n) ∧ (∀ m : Marker, m.byte < 128 ↔ m ≠ .error) := by
  refine ⟨fun k => by cases k <;> simp [format], by decide +kernel, fun m n => ?_, fun m => by cases m <;> decide⟩
  cases m <;> cases n <;> decide

/-- **C162 (numbers).** The payload type of an integer type is signed exactly when the format's type is: `U` is the only unsigned one. -/
theorem C162_signs (k : Kind) : (∃ b, (traits k).rep = .unsigned b) ↔ (traits k).marker.byte = 'U'.toNat := by
  cases k <;> simp [traits, Marker.byte]

/-- **C162 (payload).** `DATA_PAYLOAD` is what the format says for every type but the two truth values … -/
theorem C162_payload_exact (r : Row) (h : r ∈ format) : (traits r.kind).payload = r.follows ↔ r.kind ≠ .true ∧ r.kind ≠ .false := by
  revert r
  decide +kernel

/-- … and for those it is wrong: `T` and `F` are followed by nothing, and the table says they are. -/
theorem C162_payload_violated (r : Row) (h : r ∈ format) (hk : r.kind = .true ∨ r.kind = .false) :
    r.follows = false ∧ (traits r.kind).payload = true ∧ (traits r.kind).rep = .empty := by
  revert r
  decide +kernel

theorem getType_table : ∀ j : Fin alternatives.length,
    getType j.1 = (alternatives[j]).value ∧ traitsAt (getType j.1) = traits alternatives[j] := by
  decide +kernel

/-- **C162 (`getType`).** The alternatives of a `Value` stand in the order of the enumeration: whichever alternative it holds, `getType`
names it, and without one it answers the error value, which names none. -/
theorem C162_getType :
    (∀ (i : Nat) (k : Kind), alternatives[i]? = some k → getType i = k.value ∧ traitsAt (getType i) = traits k) ∧
    (∀ i : Int, i < 0 → getType i = errorValue ∧ (traitsAt (getType i)).marker = .error) ∧ (∀ k : Kind, ∃ i : Nat, alternatives[i]? = some k) ∧
    (∀ k l : Kind, k.value = l.value → k = l) ∧ ∀ k : Kind, k.value ≠ errorValue := by
  refine ⟨fun i k h => ?_, fun i hi => ?_, fun k => ⟨k.value, by cases k <;> rfl⟩, fun k l => by cases k <;> cases l <;> decide,
    fun k => by cases k <;> decide⟩
  · have hl : i < alternatives.length := (List.getElem?_eq_some_iff.mp h).1
    have he : alternatives[i]? = some alternatives[i] := List.getElem?_eq_getElem hl
    rw [he] at h
    cases h
    exact getType_table ⟨i, hl⟩
  · have : getType i = errorValue := by simp [getType, hi]
    rw [this]
    exact ⟨rfl, by decide +kernel⟩

/-- **C162 fails: the count.** `ENUMERATED_TYPE_COUNT` is one more than the number of types: a loop over the numbers below it ends with one that is
no type and whose traits are those of an error; the numbers with a type are those below one less. -/
theorem C162_count_violated :
    typeCount = alternatives.length + 1 ∧ (∀ v, v < typeCount - 1 ↔ ∃ k : Kind, k.value = v) ∧ (traitsAt (typeCount - 1)).marker = .error := by
  refine ⟨rfl, fun v => ⟨fun h => ?_, fun ⟨k, hk⟩ => by subst hk; cases k <;> decide⟩, by decide +kernel⟩
  have : ∀ j : Fin 16, ∃ k ∈ alternatives, k.value = j.1 := by decide +kernel
  obtain ⟨k, _, hk⟩ := this ⟨v, h⟩
  exact ⟨k, hk⟩

/-- **C162 (`getType`).** A number that names no type has the traits of an error: no marker, nothing that follows, no C++ type. -/
theorem C162_no_type (v : Nat) (h : ∀ k : Kind, k.value ≠ v) :
    (traitsAt v).marker = .error ∧ (traitsAt v).close = .error ∧ (traitsAt v).payload = false ∧ (traitsAt v).rep = .none := by
  have : traitsAt v = ⟨.error, .error, false, .none⟩ := by
    unfold traitsAt
    have : [Kind.nullval, .noop, .true, .false, .int8, .uint8, .int16, .int32, .int64, .float32, .float64, .hugeNum, .char, .string, .array,
        .object].find? (·.value == v) = Option.none := by
      rw [List.find?_eq_none]
      intro k _
      simpa using h k
    rw [this]
  rw [this]
  exact ⟨rfl, rfl, rfl, rfl⟩

/-- **C162 (holder).** A `BaseValue` made from a value gives it back, and so does a copy of it or one it was assigned to; a default one does not,
whatever its type. -/
theorem C162_holder_partial {α : Type} (k : Kind) (a b : α) (c : Base α) :
    (Base.mk' k a).read = .ok a ∧ (c.assign (Base.mk' k a)).read = .ok a ∧ (c.assign (Base.mk' k a)).kind = c.kind ∧ (c.write b).read = .ok b ∧
    (Base.default k : Base α).read = .ub ∧ c.toBool = true ∧
    (∀ r ∈ format, r.kind = c.kind → c.isDataPayload = (r.follows || r.kind == .true || r.kind == .false)) := by
  refine ⟨rfl, rfl, rfl, rfl, rfl, rfl, fun r hr hk => ?_⟩
  simp only [Base.isDataPayload, ← hk]
  clear hk a b c k
  revert r
  decide +kernel

/-- **C162 fails: assigning a value.** Every assignment of a plain value is undefined: the operators return nothing. -/
theorem C162_assign_violated {α : Type} (b : Base α) (a : α) : b.assignValue a = .ub := rfl

example : traits .int16 = ⟨.int16, .error, true, .signed 16⟩ ∧ (traits .array).close.byte = 93 := by decide
example : ∀ k : Kind, k.value ≠ 16 := by intro k; cases k <;> decide
example : format.length = 16 ∧ (⟨.true, 'T', none, false, none⟩ : Row) ∈ format := by simp [format]
example : alternatives[13]? = some .string ∧ getType 13 = 13 ∧ getType (-1) = 255 ∧ typeCount = 17 := by decide
example : (Base.mk' .int8 (5 : Int)).read = .ok 5 ∧ (Base.mk' .int8 (5 : Int)).assignValue 6 = .ub := ⟨rfl, rfl⟩

namespace Flame
open Ubjson
example := C162_payload_exact ⟨.int16, 'I', none, true, some 16⟩ (by simp [format])
example := C162_payload_violated ⟨.true, 'T', none, false, none⟩ (by simp [format]) (.inl rfl)
example := C162_no_type 16 (by intro k; cases k <;> decide)
end Flame

end Flame
