import Verif.Utils.TypeMod

/-!
# C143: type traits name the type they say
-/

namespace Flame.TypeMod
open Flame.TypeList (Ct)

/-! ## Specification -/

/-- The type under all pointers, references and qualifiers. -/
def core : Ty → Ty
  | .base _ _ b => .base false false b
  | .ptr _ _ t => core t
  | .arr n t => .arr n (t.dropConst.dropVolatile)
  | .lref t => core t
  | .rref t => core t

/-- No level of the type is both `const` and `volatile`. -/
def Clean : Ty → Bool
  | .base c v _ => !(c && v)
  | .ptr c v t => !(c && v) && Clean t
  | .arr _ t => !(t.isConst && t.isVolatile)
  | .lref t => Clean t
  | .rref t => Clean t

/-- `integer lp64 p = some (signed, bits)`: the integer types other than `bool`, `wchar_t` and `char`. -/
def integer (lp64 : Bool) : Prim → Option (Bool × Nat)
  | .schar => some (true, 8)
  | .uchar => some (false, 8)
  | .short => some (true, 16)
  | .ushort => some (false, 16)
  | .int => some (true, 32)
  | .uint => some (false, 32)
  | .long => some (true, if lp64 then 64 else 32)
  | .ulong => some (false, if lp64 then 64 else 32)
  | .llong => some (true, 64)
  | .ullong => some (false, 64)
  | _ => none

/-- The integer types for which the library has no name: `long long` where `int64_t` is `long`, else `long`. -/
def unnamed (lp64 : Bool) (p : Prim) : Prop :=
  if lp64 then p = .llong ∨ p = .ullong else p = .long ∨ p = .ulong

instance (lp64 p) : Decidable (unnamed lp64 p) := by unfold unnamed; infer_instance

/-- The integer types the traits know. -/
def Known (lp64 : Bool) (p : Prim) : Prop := p = .char ∨ (integer lp64 p ≠ none ∧ ¬unnamed lp64 p)

instance (lp64 p) : Decidable (Known lp64 p) := by unfold Known; infer_instance

/-! ## Lemmas -/

namespace Ty

theorem dropConst_not : ∀ t : Ty, t.isConst = false → t.dropConst = t
  | .base c v b, h => by simp [isConst] at h; simp [dropConst, h]
  | .ptr c v t, h => by simp [isConst] at h; simp [dropConst, h]
  | .arr n t, h => by simp [isConst] at h; simp [dropConst, dropConst_not t h]
  | .lref t, _ => rfl
  | .rref t, _ => rfl

theorem dropVolatile_not : ∀ t : Ty, t.isVolatile = false → t.dropVolatile = t
  | .base c v b, h => by simp [isVolatile] at h; simp [dropVolatile, h]
  | .ptr c v t, h => by simp [isVolatile] at h; simp [dropVolatile, h]
  | .arr n t, h => by simp [isVolatile] at h; simp [dropVolatile, dropVolatile_not t h]
  | .lref t, _ => rfl
  | .rref t, _ => rfl

theorem isConst_dropConst : ∀ t : Ty, t.dropConst.isConst = false
  | .base c v b => rfl
  | .ptr c v t => rfl
  | .arr n t => by simp [dropConst, isConst, isConst_dropConst t]
  | .lref t => rfl
  | .rref t => rfl

theorem isVolatile_dropVolatile : ∀ t : Ty, t.dropVolatile.isVolatile = false
  | .base c v b => rfl
  | .ptr c v t => rfl
  | .arr n t => by simp [dropVolatile, isVolatile, isVolatile_dropVolatile t]
  | .lref t => rfl
  | .rref t => rfl

theorem isVolatile_dropConst : ∀ t : Ty, t.dropConst.isVolatile = t.isVolatile
  | .base c v b => rfl
  | .ptr c v t => rfl
  | .arr n t => by simp [dropConst, isVolatile, isVolatile_dropConst t]
  | .lref t => rfl
  | .rref t => rfl

theorem isConst_dropVolatile : ∀ t : Ty, t.dropVolatile.isConst = t.isConst
  | .base c v b => rfl
  | .ptr c v t => rfl
  | .arr n t => by simp [dropVolatile, isConst, isConst_dropVolatile t]
  | .lref t => rfl
  | .rref t => rfl

theorem withConst_dropConst : ∀ t : Ty, t.isConst = true → t.dropConst.withConst = t
  | .base c v b, h => by simp [isConst] at h; simp [dropConst, withConst, h]
  | .ptr c v t, h => by simp [isConst] at h; simp [dropConst, withConst, h]
  | .arr n t, h => by simp [isConst] at h; simp [dropConst, withConst, withConst_dropConst t h]
  | .lref t, h => by simp [isConst] at h
  | .rref t, h => by simp [isConst] at h

theorem withVolatile_dropVolatile : ∀ t : Ty, t.isVolatile = true → t.dropVolatile.withVolatile = t
  | .base c v b, h => by simp [isVolatile] at h; simp [dropVolatile, withVolatile, h]
  | .ptr c v t, h => by simp [isVolatile] at h; simp [dropVolatile, withVolatile, h]
  | .arr n t, h => by simp [isVolatile] at h; simp [dropVolatile, withVolatile, withVolatile_dropVolatile t h]
  | .lref t, h => by simp [isVolatile] at h
  | .rref t, h => by simp [isVolatile] at h

theorem dropConst_dropConst (t : Ty) : t.dropConst.dropConst = t.dropConst := dropConst_not _ (isConst_dropConst t)

theorem dropVolatile_dropVolatile (t : Ty) : t.dropVolatile.dropVolatile = t.dropVolatile :=
  dropVolatile_not _ (isVolatile_dropVolatile t)

theorem drop_comm : ∀ t : Ty, t.dropVolatile.dropConst = t.dropConst.dropVolatile
  | .base c v b => rfl
  | .ptr c v t => rfl
  | .arr n t => by simp [dropVolatile, dropConst, drop_comm t]
  | .lref t => rfl
  | .rref t => rfl

theorem dropConst_withConst : ∀ t : Ty, t.withConst.dropConst = t.dropConst
  | .base c v b => rfl
  | .ptr c v t => rfl
  | .arr n t => by simp [withConst, dropConst, dropConst_withConst t]
  | .lref t => rfl
  | .rref t => rfl

theorem isVolatile_withConst : ∀ t : Ty, t.withConst.isVolatile = t.isVolatile
  | .base c v b => rfl
  | .ptr c v t => rfl
  | .arr n t => by simp [withConst, isVolatile, isVolatile_withConst t]
  | .lref t => rfl
  | .rref t => rfl

theorem isConst_withConst : ∀ t : Ty, t.isReference = false → (∀ n u, t ≠ .arr n u) → t.withConst.isConst = true
  | .base c v b, _, _ => rfl
  | .ptr c v t, _, _ => rfl
  | .arr n t, _, h => absurd rfl (h n t)
  | .lref t, h, _ => by simp [isReference] at h
  | .rref t, h, _ => by simp [isReference] at h

end Ty
open Ty

theorem core_dropConst : ∀ t : Ty, core t.dropConst = core t
  | .base c v b => rfl
  | .ptr c v t => rfl
  | .arr n t => by simp [Ty.dropConst, core, dropConst_dropConst]
  | .lref t => rfl
  | .rref t => rfl

theorem core_dropVolatile : ∀ t : Ty, core t.dropVolatile = core t
  | .base c v b => rfl
  | .ptr c v t => rfl
  | .arr n t => by simp [Ty.dropVolatile, core, drop_comm, dropVolatile_dropVolatile]
  | .lref t => rfl
  | .rref t => rfl

theorem clean_dropConst : ∀ t : Ty, t.isVolatile = false → Clean t.dropConst = Clean t
  | .base c v b, h => by simp [isVolatile] at h; simp [Ty.dropConst, Clean, h]
  | .ptr c v t, h => by simp [isVolatile] at h; simp [Ty.dropConst, Clean, h]
  | .arr n t, h => by simp [isVolatile] at h; simp [Ty.dropConst, Clean, isVolatile_dropConst, h]
  | .lref t, _ => rfl
  | .rref t, _ => rfl

theorem clean_dropVolatile : ∀ t : Ty, t.isConst = false → Clean t.dropVolatile = Clean t
  | .base c v b, h => by simp [isConst] at h; simp [Ty.dropVolatile, Clean, h]
  | .ptr c v t, h => by simp [isConst] at h; simp [Ty.dropVolatile, Clean, h]
  | .arr n t, h => by simp [isConst] at h; simp [Ty.dropVolatile, Clean, isConst_dropVolatile, h]
  | .lref t, _ => rfl
  | .rref t, _ => rfl

theorem clean_cv : ∀ t : Ty, t.isConst = true → t.isVolatile = true → Clean t = false
  | .base c v b, h, h' => by simp [isConst, isVolatile] at h h'; simp [Clean, h, h']
  | .ptr c v t, h, h' => by simp [isConst, isVolatile] at h h'; simp [Clean, h, h']
  | .arr n t, h, h' => by simp [isConst, isVolatile] at h h'; simp [Clean, h, h']
  | .lref t, h, _ => by simp [isConst] at h
  | .rref t, h, _ => by simp [isConst] at h

theorem removePointer_core (t : Ty) : core t.removePointer = core t ∧ Clean t.removePointer = Clean t := by
  unfold removePointer; split <;> simp [core, Clean]

theorem removeReference_core (t : Ty) : core t.removeReference = core t ∧ Clean t.removeReference = Clean t := by
  unfold removeReference; split <;> simp [core, Clean]

/-- What `RemoveAllTrait` yields, for every type. -/
theorem C143_removeAll_exact (t : Ty) : t.removeAll = if Clean t then .val (core t) else .error := by
  induction t using removeAll.induct with
  | case1 t hc hv => rw [removeAll, dif_pos hc, if_pos hv, clean_cv t hc hv]; rfl
  | case2 t hc hv _ ih =>
    have hv : t.isVolatile = false := by simpa using hv
    have e : t.dropConst.removeConst = t.dropConst := by simp [removeConst, isConst_dropConst]
    rw [removeAll, dif_pos hc, if_neg (by simp [hv])]
    simp only [e] at ih ⊢
    rw [ih, core_dropConst, clean_dropConst t hv]
  | case3 t hc hv _ ih =>
    have hc' : t.isConst = false := by simpa using hc
    have e : t.dropVolatile.removeVolatile = t.dropVolatile := by simp [removeVolatile, isVolatile_dropVolatile]
    rw [removeAll, dif_neg hc, dif_pos hv]
    simp only [e] at ih ⊢
    rw [ih, core_dropVolatile, clean_dropVolatile t hc']
  | case4 c v u hc hv _ ih =>
    rw [removeAll, dif_neg hc, dif_neg hv]
    have hc' : c = false := by simpa [isConst] using hc
    simp only []
    rw [ih, (removePointer_core u).1, (removePointer_core u).2]
    simp [core, Clean, hc']
  | case5 u hc hv _ ih =>
    rw [removeAll, dif_neg hc, dif_neg hv]
    simp only []
    rw [ih, (removeReference_core u).1, (removeReference_core u).2]
    rfl
  | case6 u hc hv _ ih =>
    rw [removeAll, dif_neg hc, dif_neg hv]
    simp only []
    rw [ih, (removeReference_core u).1, (removeReference_core u).2]
    rfl
  | case7 t hc hv h1 h2 h3 =>
    rw [removeAll, dif_neg hc, dif_neg hv]
    cases t with
    | base c v b => simp [isConst, isVolatile] at hc hv; simp [core, Clean, hc, hv]
    | ptr c v u => exact (h1 c v u hc hv rfl HEq.rfl HEq.rfl).elim
    | arr n u =>
      simp [isConst, isVolatile] at hc hv
      simp [core, Clean, hc, dropConst_not u hc, dropVolatile_not u hv]
    | lref u => exact (h2 u hc hv rfl HEq.rfl HEq.rfl).elim
    | rref u => exact (h3 u hc hv rfl HEq.rfl HEq.rfl).elim

example : (Ty.lref (.ptr true false (.ptr false false (.base true false (.prim .char))))).removeAll = .val (of .char) := by
  rw [C143_removeAll_exact]; rfl

/-- The full claim is false: a type with both qualifiers, or one that contains such a type, has no `RemoveAllTrait`. -/
theorem C143_removeAll_violated (t : Ty) (hc : t.isConst = true) (hv : t.isVolatile = true) :
    t.removeAll = .error ∧ ∀ c v, (Ty.ptr c v t).removeAll = .error ∧ (Ty.lref t).removeAll = .error := by
  have := clean_cv t hc hv
  refine ⟨by rw [C143_removeAll_exact, this]; rfl, fun c v => ⟨?_, ?_⟩⟩ <;> rw [C143_removeAll_exact] <;> simp [Clean, this]

example : (Ty.base true true (.prim .int)).isConst = true ∧ (Ty.base true true (.prim .int)).isVolatile = true := ⟨rfl, rfl⟩

/-- Each of the traits that remove one modifier removes that modifier and nothing else. -/
theorem C143_remove_one (t : Ty) :
    (t.removeConst.isConst = false ∧ t.removeConst.isVolatile = t.isVolatile
      ∧ (t.isConst = true → t.removeConst.withConst = t) ∧ (t.isConst = false → t.removeConst = t))
    ∧ (t.removeVolatile.isVolatile = false ∧ t.removeVolatile.isConst = t.isConst
      ∧ (t.isVolatile = true → t.removeVolatile.withVolatile = t) ∧ (t.isVolatile = false → t.removeVolatile = t))
    ∧ (Ty.lref t).removeReference = t ∧ (Ty.rref t).removeReference = t ∧ (t.isReference = false → t.removeReference = t) := by
  refine ⟨⟨?_, ?_, ?_, ?_⟩, ⟨?_, ?_, ?_, ?_⟩, rfl, rfl, ?_⟩
  · unfold removeConst; split
    · exact isConst_dropConst t
    · rename_i hh; simpa using hh
  · unfold removeConst; split
    · exact isVolatile_dropConst t
    · rfl
  · intro h; simp [removeConst, h, withConst_dropConst]
  · intro h; simp [removeConst, h]
  · unfold removeVolatile; split
    · exact isVolatile_dropVolatile t
    · rename_i hh; simpa using hh
  · unfold removeVolatile; split
    · exact isConst_dropVolatile t
    · rfl
  · intro h; simp [removeVolatile, h, withVolatile_dropVolatile]
  · intro h; simp [removeVolatile, h]
  · intro h; cases t <;> simp_all [isReference, removeReference]

example : (Ty.base true true (.other 3)).removeConst = .base false true (.other 3) := rfl

/-- Pointers: recognised and removed exactly if the pointer itself has no qualifier. -/
theorem C143_pointer_exact (c v : Bool) (t : Ty) :
    ((Ty.ptr c v t).isPointer = (!c && !v)) ∧ (Ty.ptr c v t).removePointer = if c || v then .ptr c v t else t := by
  cases c <;> cases v <;> simp [isPointer, removePointer]

/-- Nothing else is taken for a pointer. -/
theorem C143_pointer_only (t : Ty) (h : ∀ c v u, t ≠ .ptr c v u) : t.isPointer = false ∧ t.removePointer = t := by
  cases t with
  | ptr c v u => exact absurd rfl (h c v u)
  | _ => exact ⟨rfl, rfl⟩

/-- The full claim is false: a `const` or `volatile` pointer is not recognised as a pointer. -/
theorem C143_pointer_violated (c v : Bool) (t : Ty) (h : c = true ∨ v = true) :
    (Ty.ptr c v t).isPointer = false ∧ (Ty.ptr c v t).removePointer ≠ t := by
  refine ⟨by rw [(C143_pointer_exact c v t).1]; rcases h with h | h <;> simp [h], ?_⟩
  rw [(C143_pointer_exact c v t).2, if_pos (by rcases h with h | h <;> simp [h])]
  intro e
  have := congrArg Ty.weight e
  simp only [weight] at this; omega

example : (Ty.ptr true false (of .int)).isPointer = false := rfl

/-- Adding a modifier to an object type (no reference, not `void`). -/
theorem C143_add_exact (t : Ty) (hr : t.isReference = false) (hv : t.isVoid = false) :
    t.addReference = .val (.lref t) ∧ t.addMoveReference = .val (.rref t) ∧ t.addConst = .val t.withConst
    ∧ t.addPointer = .val (.ptr false false t) ∧ t.addVolatile = .val (.ptr false true t) := by
  have : t.traits = .general := by
    cases t with
    | base c v b => cases b <;> first | (simp [isVoid] at hv; done) | (cases c <;> cases v <;> rfl)
    | ptr => rfl
    | arr => rfl
    | lref => simp [isReference] at hr
    | rref => simp [isReference] at hr
  simp [addReference, addMoveReference, addConst, addPointer, addVolatile, this, withVolatile]

example : (of .int).isReference = false ∧ (of .int).isVoid = false := ⟨rfl, rfl⟩

/-- The full claim is false: `AddVolatileTrait` never yields the volatile type (it yields a volatile pointer). -/
theorem C143_addVolatile_violated (t : Ty) : t.addVolatile ≠ .val t.withVolatile := by
  unfold addVolatile
  split
  · simp
  · simp only [ne_eq, Ct.val.injEq]
    intro e
    have h2 : ∀ t : Ty, t.withVolatile.dropVolatile = t.dropVolatile := by
      intro t; induction t with
      | arr n t ih => simp [withVolatile, dropVolatile, ih]
      | _ => rfl
    have := congrArg (fun t => (Ty.dropVolatile t).weight) e
    simp only [h2] at this
    have h3 := weight_dropVolatile t
    simp only [dropVolatile, weight] at this
    omega


/-- The full claim is false: none of these traits can be applied to a reference or to a qualified `void`, although collapsing and qualifying them is possible in the language. -/
theorem C143_add_violated (t : Ty) (h : t.isReference = true ∨ ∃ c v, t = .base c v .void ∧ (c || v) = true) :
    t.addReference = .error ∧ t.addMoveReference = .error ∧ t.addConst = .error ∧ t.addPointer = .error ∧ t.addVolatile = .error := by
  have : t.traits = .bad := by
    rcases h with h | ⟨c, v, rfl, h⟩
    · cases t <;> simp_all [isReference, traits]
    · cases c <;> cases v <;> simp_all [traits]
  simp [addReference, addMoveReference, addConst, addPointer, addVolatile, this]

example : (Ty.lref (of .int)).isReference = true := rfl

/-! ## Numbers -/

theorem asserted_eq (lp64 : Bool) (t : Ty) :
    asserted lp64 t = (Clean t && isPrimitive lp64 (core t) && !isFloat (core t)) := by
  unfold asserted
  rw [C143_removeAll_exact]
  cases Clean t <;> simp

theorem known_iff (lp64 : Bool) (t : Ty) :
    (isPrimitive lp64 t && !isFloat t) = true ↔ ∃ p, t = of p ∧ Known lp64 p := by
  constructor
  · intro h
    simp only [isPrimitive, isFloat, Bool.and_eq_true, decide_eq_true_eq, List.mem_cons, List.not_mem_nil, or_false, Bool.not_eq_true',
      decide_eq_false_iff_not, not_or] at h
    obtain ⟨h, h1, h2, h3⟩ := h
    cases lp64 <;>
    · rcases h with h | h | h | h | h | h | h | h | h | h | h | h <;> first
        | exact absurd h h1
        | exact absurd h h2
        | exact absurd h h3
        | exact ⟨_, h, by decide⟩
  · rintro ⟨p, rfl, h⟩
    revert h
    cases lp64 <;> cases p <;> decide

/-- `IsIntegralTrait` holds exactly for the unqualified integer types that have a name in the library, and `char`. -/
theorem C143_integral_exact (lp64 : Bool) (t : Ty) : isIntegral lp64 t = true ↔ ∃ p, t = of p ∧ Known lp64 p :=
  known_iff lp64 t

/-- The full claim is false: integer types exist that no trait knows. -/
theorem C143_integral_violated (lp64 : Bool) :
    (∃ p, integer lp64 p = some (true, if lp64 then 64 else 32) ∧ isIntegral lp64 (of p) = false ∧ isSigned lp64 (of p) = .error
      ∧ makeUnsigned lp64 (of p) = .error)
    ∧ isIntegral lp64 (of .bool) = false := by
  cases lp64
  · exact ⟨⟨.long, by decide, by decide, by decide +kernel, by decide +kernel⟩, by decide⟩
  · exact ⟨⟨.llong, by decide, by decide, by decide +kernel, by decide +kernel⟩, by decide⟩

/-- For every unqualified integer type with a name: signedness, and the type of the other signedness and the same width. -/
theorem C143_sign_exact (lp64 : Bool) (p : Prim) (s : Bool) (w : Nat) (hp : integer lp64 p = some (s, w)) (hk : Known lp64 p) :
    isSigned lp64 (of p) = .val s ∧ isUnsigned lp64 (of p) = .val (!s)
    ∧ (∃ q, makeSigned lp64 (of p) = .val (of q) ∧ Known lp64 q ∧ integer lp64 q = some (true, w))
    ∧ (∃ q, makeUnsigned lp64 (of p) = .val (of q) ∧ Known lp64 q ∧ integer lp64 q = some (false, w)) := by
  have hs : asserted lp64 (of p) = true := by
    rw [asserted_eq, Bool.and_assoc]
    have : core (of p) = of p := rfl
    rw [this, (known_iff lp64 (of p)).mpr ⟨p, rfl, hk⟩]; rfl
  revert hp hk hs
  cases lp64 <;> cases p <;> simp only [integer, Option.some.injEq, Prod.mk.injEq, reduceCtorEq, false_implies] <;>
  · rintro ⟨rfl, rfl⟩ hk hs
    revert hk
    simp only [isSigned, isUnsigned, makeSigned, makeUnsigned, hs]
    first
      | (intro hk; exact absurd hk (by decide))
      | exact fun _ => ⟨by decide, by decide, ⟨.schar, by decide, by decide, by decide⟩, ⟨.uchar, by decide, by decide, by decide⟩⟩
      | exact fun _ => ⟨by decide, by decide, ⟨.short, by decide, by decide, by decide⟩, ⟨.ushort, by decide, by decide, by decide⟩⟩
      | exact fun _ => ⟨by decide, by decide, ⟨.int, by decide, by decide, by decide⟩, ⟨.uint, by decide, by decide, by decide⟩⟩
      | exact fun _ => ⟨by decide, by decide, ⟨.long, by decide, by decide, by decide⟩, ⟨.ulong, by decide, by decide, by decide⟩⟩
      | exact fun _ => ⟨by decide, by decide, ⟨.llong, by decide, by decide, by decide⟩, ⟨.ullong, by decide, by decide, by decide⟩⟩

example : integer true .uint = some (false, 32) ∧ Known true .uint := by decide

/-- The full claim is false for every integer type that carries a qualifier, reference or pointer, and for `char`: it is reported neither signed nor
unsigned, and asked for its signed or unsigned counterpart the traits return the type itself. -/
theorem C143_sign_violated (lp64 : Bool) (t : Ty) (p : Prim) (hc : Clean t = true) (hp : core t = of p) (hk : Known lp64 p)
    (h : t ≠ of p ∨ p = .char) :
    isSigned lp64 t = .val false ∧ isUnsigned lp64 t = .val false ∧ makeSigned lp64 t = .val t ∧ makeUnsigned lp64 t = .val t := by
  have hs : asserted lp64 t = true := by
    rw [asserted_eq, hc, hp, Bool.true_and]; exact (known_iff lp64 _).mpr ⟨p, rfl, hk⟩
  have key : ∀ q, t = of q → q = .char := by
    rintro q rfl
    have : of q = of p := hp
    rcases h with h | h
    · exact absurd this h
    · simp only [of, Ty.base.injEq, Base.prim.injEq, true_and] at this; rw [this, h]
  have n1 : t ≠ of .uchar := fun e => by have := key _ e; cases this
  have n2 : t ≠ of .ushort := fun e => by have := key _ e; cases this
  have n3 : t ≠ of .uint := fun e => by have := key _ e; cases this
  have n4 : t ≠ of (uint64 lp64) := fun e => by have := key _ e; cases lp64 <;> cases this
  have m1 : t ≠ of .schar := fun e => by have := key _ e; cases this
  have m2 : t ≠ of .short := fun e => by have := key _ e; cases this
  have m3 : t ≠ of .int := fun e => by have := key _ e; cases this
  have m4 : t ≠ of (int64 lp64) := fun e => by have := key _ e; cases lp64 <;> cases this
  simp only [isSigned, isUnsigned, makeSigned, makeUnsigned, List.mem_cons, List.not_mem_nil, n1, n2, n3, n4, m1, m2, m3, m4, hs, or_self,
    if_false, if_true, and_self]

example : Clean (.base true false (.prim .int)) = true ∧ core (.base true false (.prim .int)) = of .int ∧ Known true .int
    ∧ Ty.base true false (.prim .int) ≠ of .int := by decide

/-- The least and greatest number of an integer type. -/
def Range (s : Bool) (w : Nat) (x : Int) : Prop :=
  if s then -(2 ^ (w - 1) : Int) ≤ x ∧ x < 2 ^ (w - 1) else 0 ≤ x ∧ x < 2 ^ w

theorem limitOf_val (lp64 : Bool) (u : Ty) (lo hi : Int) (h : limitOf lp64 u = .val (lo, hi)) :
    ∃ p s w, u = of p ∧ Known lp64 p ∧ integer lp64 p = some (s, w) ∧ Range s w lo ∧ Range s w hi ∧ ∀ x, Range s w x → lo ≤ x ∧ x ≤ hi := by
  unfold limitOf at h
  repeat' split at h
  all_goals first
    | (cases h; done)
    | (rename_i e
       simp only [Ct.val.injEq, Prod.mk.injEq] at h
       obtain ⟨rfl, rfl⟩ := h
       subst e
       cases lp64
       · refine ⟨_, _, _, rfl, by decide, rfl, ?_, ?_, ?_⟩ <;> simp [Range] <;> omega
       · refine ⟨_, _, _, rfl, by decide, rfl, ?_, ?_, ?_⟩ <;> simp [Range] <;> omega)

theorem limitOf_known (lp64 : Bool) (p : Prim) (hk : Known lp64 p) (hp : integer lp64 p ≠ none) : ∃ lo hi, limitOf lp64 (of p) = .val (lo, hi) := by
  revert hk hp
  cases lp64 <;> cases p <;> intro hk hp <;> first
    | exact absurd hk (by decide)
    | exact absurd rfl hp
    | exact ⟨_, _, rfl⟩

theorem limitOf_iff (lp64 : Bool) (u : Ty) (lo hi : Int) : limitOf lp64 u = .val (lo, hi) ↔
    ∃ p s w, u = of p ∧ Known lp64 p ∧ integer lp64 p = some (s, w) ∧ Range s w lo ∧ Range s w hi ∧ ∀ x, Range s w x → lo ≤ x ∧ x ≤ hi := by
  refine ⟨limitOf_val lp64 u lo hi, ?_⟩
  rintro ⟨p, s, w, rfl, hk, hp, h1, h2, h3⟩
  obtain ⟨lo', hi', e⟩ := limitOf_known lp64 p hk (by simp [hp])
  obtain ⟨p', s', w', ep, _, hp', g1, g2, g3⟩ := limitOf_val lp64 _ _ _ e
  simp only [of, Ty.base.injEq, Base.prim.injEq, true_and] at ep
  subst ep
  rw [hp] at hp'
  simp only [Option.some.injEq, Prod.mk.injEq] at hp'
  obtain ⟨rfl, rfl⟩ := hp'
  have := h3 _ g1; have := h3 _ g2; have := g3 _ h1; have := g3 _ h2
  have e1 : lo' = lo := by omega
  have e2 : hi' = hi := by omega
  rw [e, e1, e2]

/-- `NumberLimitTrait` has members exactly for the integer types with a name, `volatile` or not; they are the least and the greatest value. -/
theorem C143_limits_exact (lp64 : Bool) (t : Ty) (lo hi : Int) :
    numberLimit lp64 t = .val (lo, hi) ↔
      ∃ p v s w, t = .base false v (.prim p) ∧ Known lp64 p ∧ integer lp64 p = some (s, w)
        ∧ Range s w lo ∧ Range s w hi ∧ ∀ x, Range s w x → lo ≤ x ∧ x ≤ hi := by
  have key : numberLimit lp64 t = limitOf lp64 t.dropVolatile := by
    unfold numberLimit
    split
    · rfl
    · rename_i h; rw [dropVolatile_not t (by simpa using h)]
  rw [key, limitOf_iff]
  constructor
  · rintro ⟨p, s, w, e, hk, hp, r⟩
    cases t with
    | base c v b =>
      simp only [dropVolatile, of, Ty.base.injEq, true_and] at e
      obtain ⟨rfl, rfl⟩ := e
      exact ⟨p, v, s, w, rfl, hk, hp, r⟩
    | _ => simp [dropVolatile] at e
  · rintro ⟨p, v, s, w, rfl, hk, hp, r⟩
    exact ⟨p, s, w, rfl, hk, hp, r⟩

example : numberLimit true (.base false true (.prim .short)) = .val (-32768, 32767) := by decide

/-- The full claim is false: a `const` integer has no limits, nor has `char`. -/
theorem C143_limits_violated (lp64 : Bool) (t : Ty) (h : t.isConst = true ∨ t = of .char) : numberLimit lp64 t = .error := by
  cases e : numberLimit lp64 t with
  | error => rfl
  | val r =>
    obtain ⟨p, v, s, w, rfl, _, hp, _⟩ := (C143_limits_exact lp64 t r.1 r.2).mp e
    rcases h with h | h
    · simp [isConst] at h
    · simp only [of, Ty.base.injEq, Base.prim.injEq, true_and] at h; rw [h.2] at hp; simp [integer] at hp

/-! ## Users of `RemoveAllTrait` -/

theorem core_not_ptr : ∀ t c v u, core t ≠ .ptr c v u
  | .base _ _ _, _, _, _ => by simp [core]
  | .ptr _ _ t, c, v, u => by simpa [core] using core_not_ptr t c v u
  | .arr _ _, _, _, _ => by simp [core]
  | .lref t, c, v, u => by simpa [core] using core_not_ptr t c v u
  | .rref t, c, v, u => by simpa [core] using core_not_ptr t c v u

theorem core_not_ref : ∀ t, (core t).isReference = false
  | .base _ _ _ => rfl
  | .ptr _ _ t => by simpa [core] using core_not_ref t
  | .arr _ _ => rfl
  | .lref t => by simpa [core] using core_not_ref t
  | .rref t => by simpa [core] using core_not_ref t

theorem core_unqual : ∀ t, (core t).isConst = false ∧ (core t).isVolatile = false
  | .base _ _ _ => ⟨rfl, rfl⟩
  | .ptr _ _ t => by simpa [core] using core_unqual t
  | .arr n t => by simp [core, isConst, isVolatile, isVolatile_dropVolatile, isConst_dropVolatile, isConst_dropConst]
  | .lref t => by simpa [core] using core_unqual t
  | .rref t => by simpa [core] using core_unqual t

theorem core_traits (t : Ty) : (core t).traits ≠ .bad := by
  have h1 := core_not_ref t; have h2 := core_unqual t
  cases e : core t with
  | base c v b => rw [e] at h2; simp [isConst, isVolatile] at h2; cases b <;> simp [h2, traits]
  | ptr c v u => simp [traits]
  | arr n u => simp [traits]
  | lref u => rw [e] at h1; simp [isReference] at h1
  | rref u => rw [e] at h1; simp [isReference] at h1

theorem core_cases (t : Ty) : (∃ b, core t = .base false false b) ∨ ∃ n u, core t = .arr n u := by
  have h1 := core_not_ref t; have h2 := core_unqual t
  cases e : core t with
  | base c v b => rw [e] at h2; simp [isConst, isVolatile] at h2; exact .inl ⟨b, by simp [h2]⟩
  | ptr c v u => exact absurd e (core_not_ptr t c v u)
  | arr n u => exact .inr ⟨n, u, rfl⟩
  | lref u => rw [e] at h1; simp [isReference] at h1
  | rref u => rw [e] at h1; simp [isReference] at h1

/-- A type without any modifier: its own core. -/
def Plain (t : Ty) : Prop := core t = t

instance (t) : Decidable (Plain t) := by unfold Plain; infer_instance

theorem plain_clean (t : Ty) (h : core t = t) : Clean t = true := by
  have h2 := core_unqual t
  rw [h] at h2
  rcases core_cases t with ⟨b, e⟩ | ⟨n, u, e⟩
  · rw [h] at e; rw [e]; rfl
  · rw [h] at e; rw [e] at h2 ⊢; simp [isConst, isVolatile] at h2; simp [Clean, h2]

/-- `get<T>()` of a variant compiles exactly for an alternative without modifiers. -/
theorem C143_variant_exact (t : Ty) (hr : t.isReference = false) : (∃ u, variantGet t = .val u) ↔ Plain t := by
  unfold variantGet Plain
  rw [C143_removeAll_exact]
  constructor
  · rintro ⟨u, h⟩
    cases hcl : Clean t <;> simp only [hcl, if_true, if_false, Bool.false_eq_true] at h
    · cases h
    · simp only [pointee, core_traits, if_false] at h
      split at h
      · rename_i hp
        simp only [ptrConverts, core_unqual t, Bool.and_eq_true, decide_eq_true_eq, Bool.or_false, Bool.not_eq_true'] at hp
        obtain ⟨⟨h1, h2⟩, h3⟩ := hp
        rw [dropConst_not t h2, dropVolatile_not t h3, dropConst_not _ (core_unqual t).1, dropVolatile_not _ (core_unqual t).2] at h1
        exact h1.symm
      · cases h
  · intro h
    have hc := plain_clean t h
    have h2 := core_unqual t
    have h3 := core_traits t
    rw [h] at h2 h3
    refine ⟨t, ?_⟩
    simp [hc, h, pointee, h3, ptrConverts]

example : (Ty.of .int).isReference = false ∧ Plain (of .int) := ⟨rfl, rfl⟩

/-- Reading from a const variant also works for `const` alternatives, not for `volatile` ones. -/
theorem C143_variant_const_exact (c v : Bool) (b : Base) :
    variantGetConst (.base c v b) = if v then .error else .val (.base true false b) := by
  unfold variantGetConst
  rw [C143_removeAll_exact]
  have : core (.base c v b) = .base false false b := rfl
  rw [this]
  have h2 : pointee (.base false false b) = .val (.base false false b) := by cases b <;> rfl
  cases c <;> cases v <;> simp [Clean, h2, ptrConverts, withConst, Ty.dropConst, Ty.dropVolatile, isConst, isVolatile]

/-- The full claim is false: a pointer stored in a variant can be read by type neither from a variable nor from a const variant. -/
theorem C143_variant_violated (c v : Bool) (t : Ty) : variantGet (.ptr c v t) = .error ∧ variantGetConst (.ptr c v t) = .error := by
  constructor
  · cases e : variantGet (.ptr c v t) with
    | error => rfl
    | val u => exact absurd ((C143_variant_exact _ rfl).mp ⟨u, e⟩) (core_not_ptr _ _ _ _)
  · unfold variantGetConst
    rw [C143_removeAll_exact]
    cases Clean (Ty.ptr c v t)
    · rfl
    · simp only [if_true, pointee, core_traits, if_false]
      have : ptrConverts (Ty.ptr c v t).withConst (core (Ty.ptr c v t)).withConst = false := by
        rcases core_cases (Ty.ptr c v t) with ⟨b, e⟩ | ⟨n, u, e⟩ <;> rw [e] <;> simp [ptrConverts, withConst, Ty.dropConst, Ty.dropVolatile]
      simp [this]

/-- An initializer list accepts an argument exactly if the element type is what is left of the argument's type without all modifiers. -/
theorem C143_initlist_exact (t arg : Ty) : initListAccepts t arg = true ↔ t.traits = .general ∧ Clean arg = true ∧ core arg = t := by
  unfold initListAccepts
  rw [C143_removeAll_exact]
  cases Clean arg <;> simp

theorem core_core : ∀ t, core (core t) = core t
  | .base _ _ _ => rfl
  | .ptr _ _ t => by simpa [core] using core_core t
  | .arr n t => by simp [core, drop_comm, dropConst_dropConst, dropVolatile_dropVolatile]
  | .lref t => by simpa [core] using core_core t
  | .rref t => by simpa [core] using core_core t

/-- The full claim is false: a list of pointers (or of a qualified type) accepts no argument at all. -/
theorem C143_initlist_violated (t arg : Ty) (h : ¬Plain t) : initListAccepts t arg = false := by
  cases e : initListAccepts t arg with
  | false => rfl
  | true =>
    obtain ⟨_, _, h3⟩ := (C143_initlist_exact t arg).mp e
    exact absurd (by rw [Plain, ← h3, core_core]) h

example : ¬Plain (.ptr false false (.base true false (.prim .char))) := by decide +kernel

namespace Flame.TypeMod
open Ty
example := C143_pointer_only (Ty.lref (of .int)) (by intro c v u h; cases h)
example := C143_limits_violated true (Ty.base true false (.prim .int)) (.inl rfl)
end Flame.TypeMod

end Flame.TypeMod
