import Verif.Alloc.Exhaust
import Verif.Vector.Lemmas

/-!
# C164: running out of memory leaves containers as they were

Wanted: when the allocator answers null, an operation of a container leaves the container as it was, loses no memory and touches none it does not have.
-/

namespace Flame
open Own (Ev Live)

section String
open StrMem
variable {α : Type} [DecidableEq α] {z : α} {can : Nat → Bool}

/-- What an operation does to the characters, forgetting the record of the allocator. -/
def strOf : Res (StrMem.St α) → Res (Str α)
  | .ok s => .ok s.str
  | .ub => .ub
  | .loop => .loop

@[simp] theorem strOf_ok (s : StrMem.St α) : strOf (.ok s) = .ok s.str := rfl
@[simp] theorem strOf_ub : strOf (.ub : Res (StrMem.St α)) = .ub := rfl
@[simp] theorem strOf_loop : strOf (.loop : Res (StrMem.St α)) = .loop := rfl

theorem strMem_resize (hc : ∀ n, can n = true) (s : StrMem.St α) (n : Nat) : strOf (StrMem.resize z can s n) = s.str.resize z n := by
  unfold StrMem.resize Str.resize
  by_cases h1 : s.str.buf ≠ []
  · by_cases h2 : s.str.cap < n
    · simp [h1, h2, hc]
    · simp [h1, h2]
  · simp only [h1, if_false, hc, if_true]
    cases hw : Raw.wr (List.replicate n (none : Option α)) 0 z <;> simp

theorem strMem_clean (s : StrMem.St α) : strOf (StrMem.clean z s) = s.str.clean z := by
  unfold StrMem.clean
  cases h : s.str.clean z <;> simp

/-- Composition: an operation whose first step is one of the above. -/
theorem strOf_bind {x : Res (StrMem.St α)} {y : Res (Str α)} {f : StrMem.St α → Res (StrMem.St α)} {g : Str α → Res (Str α)}
    (h : strOf x = y) (hfg : ∀ s, strOf (f s) = g s.str) : strOf (x >>= f) = (y >>= g) := by
  subst h
  cases x with
  | ok s => simpa using hfg s
  | ub => rfl
  | loop => rfl

theorem strMem_pushBack (hc : ∀ n, can n = true) (f : Nat) (s : StrMem.St α) (c : α) :
    strOf (StrMem.pushBack z can f s c) = s.str.pushBack z f c := by
  induction f generalizing s with
  | zero => rfl
  | succ f ih =>
    unfold StrMem.pushBack Str.pushBack
    by_cases h : s.str.len < s.str.cap
    · simp only [h, if_true]
      cases h1 : s.str.buf.wr s.str.len c with
      | ok b => simp only [Res.ok_bind]; cases h2 : b.wr (s.str.len + 1) z <;> simp
      | ub => rfl
      | loop => rfl
    · simp only [h, if_false]
      exact strOf_bind (strMem_resize hc s _) (fun s => ih s)

theorem strMem_insert (hc : ∀ n, can n = true) (f : Nat) (s : StrMem.St α) (pos : Nat) (c : α) :
    strOf (StrMem.insert z can f s pos c) = s.str.insert z f pos c := by
  induction f generalizing s with
  | zero => rfl
  | succ f ih =>
    unfold StrMem.insert Str.insert
    by_cases h : s.str.len < pos
    · simp [h]
    · by_cases h1 : s.str.len + 1 < s.str.cap
      · by_cases h2 : pos = s.str.len
        · simp only [h, h1, h2, if_true, if_false, Nat.lt_irrefl]
          exact strMem_pushBack hc _ s c
        · simp only [h, h1, h2, if_true, if_false]
          cases e1 : s.str.buf.wr s.str.len z with
          | ok b =>
            simp only [Res.ok_bind]
            cases e2 : b.copyUp pos 1 (s.str.len - pos) with
            | ok b =>
              simp only [Res.ok_bind]
              cases e3 : b.wr pos c with
              | ok b => simp only [Res.ok_bind]; cases e4 : b.wr (s.str.len + 1) z <;> simp
              | ub => rfl
              | loop => rfl
            | ub => rfl
            | loop => rfl
          | ub => rfl
          | loop => rfl
      · simp only [h, h1, if_false]
        exact strOf_bind (strMem_resize hc s _) (fun s => ih s)

theorem strMem_assign (hc : ∀ n, can n = true) (f : Nat) (s : StrMem.St α) (t : Str α) :
    strOf (StrMem.assign z can f s t) = s.str.assign z f t := by
  induction f generalizing s with
  | zero => rfl
  | succ f ih =>
    unfold StrMem.assign Str.assign
    by_cases h : t.len ≤ s.str.cap
    · simp only [h, if_true]
      refine strOf_bind (strMem_clean s) (fun s => ?_)
      cases e1 : t.buf.rdRange 0 t.len with
      | ok xs =>
        simp only [Res.ok_bind]
        cases e2 : s.str.buf.wrList 0 xs with
        | ok b => simp only [Res.ok_bind]; cases e3 : b.wr xs.length z <;> simp
        | ub => rfl
        | loop => rfl
      | ub => rfl
      | loop => rfl
    · simp only [h, if_false]
      exact strOf_bind (strMem_resize hc s _) (fun s => ih s)

theorem strMem_assignRaw (hc : ∀ n, can n = true) (f : Nat) (s : StrMem.St α) (p : CPtr α) :
    strOf (StrMem.assignRaw z can f s p) = s.str.assignRaw z f p := by
  induction f generalizing s with
  | zero => rfl
  | succ f ih =>
    unfold StrMem.assignRaw Str.assignRaw
    refine strOf_bind (strMem_clean s) (fun s => ?_)
    cases e1 : Str.rawLen z p with
    | ok n =>
      simp only [Res.ok_bind]
      by_cases h : n + 1 ≤ s.str.cap
      · simp only [h, if_true]
        cases e2 : Str.rawTake p (n + 1) with
        | ok xs =>
          simp only [Res.ok_bind]
          cases e3 : s.str.buf.wrList 0 xs with
          | ok b => simp only [Res.ok_bind]; cases e4 : b.wr n z <;> simp
          | ub => rfl
          | loop => rfl
        | ub => rfl
        | loop => rfl
      · simp only [h, if_false]
        exact strOf_bind (strMem_resize hc s _) (fun s => ih s)
    | ub => rfl
    | loop => rfl

theorem strMem_pushBackRaw (hc : ∀ n, can n = true) (f : Nat) (s : StrMem.St α) (p : CPtr α) :
    strOf (StrMem.pushBackRaw z can f s p) = s.str.pushBackRaw z f p := by
  induction f generalizing s with
  | zero => rfl
  | succ f ih =>
    unfold StrMem.pushBackRaw Str.pushBackRaw
    cases e1 : Str.rawLen z p with
    | ok n =>
      simp only [Res.ok_bind]
      by_cases h : s.str.len + n + 2 < s.str.cap
      · simp only [h, if_true]
        cases e2 : Str.rawTake p n with
        | ok xs =>
          simp only [Res.ok_bind]
          cases e3 : s.str.buf.wrList s.str.len xs with
          | ok b => simp only [Res.ok_bind]; cases e4 : b.wr (s.str.len + n) z <;> simp
          | ub => rfl
          | loop => rfl
        | ub => rfl
        | loop => rfl
      · simp only [h, if_false]
        exact strOf_bind (strMem_resize hc s _) (fun s => ih s)
    | ub => rfl
    | loop => rfl

/-- **C164 (partial), strings.** While every request is satisfied, strings do exactly what `Verif.String.Model` says, so what is proved about that model holds. -/
theorem C164_string_partial (hc : ∀ n, can n = true) :
    (∀ s n, strOf (StrMem.resize z can s n) = s.str.resize z n) ∧ (∀ s n, strOf (StrMem.reserve z can s n) = s.str.reserve z n) ∧
      (∀ f s c, strOf (StrMem.pushBack z can f s c) = s.str.pushBack z f c) ∧
      (∀ f s c, strOf (StrMem.pushBackMove z can f s c) = s.str.pushBackMove z f c) ∧
      (∀ f s p, strOf (StrMem.pushBackRaw z can f s p) = s.str.pushBackRaw z f p) ∧
      (∀ f s pos c, strOf (StrMem.insert z can f s pos c) = s.str.insert z f pos c) ∧
      (∀ f s t, strOf (StrMem.assign z can f s t) = s.str.assign z f t) ∧
      (∀ f s p, strOf (StrMem.assignRaw z can f s p) = s.str.assignRaw z f p) ∧
      (∀ k l t, strOf (StrMem.copy z can k l t) = t.copy z) ∧ (∀ k l p, strOf (StrMem.ofRaw z can k l p) = Str.ofRaw z p) := by
  refine ⟨strMem_resize hc, fun s n => strMem_resize hc s _, strMem_pushBack hc, fun f s c => ?_, strMem_pushBackRaw hc, strMem_insert hc,
    strMem_assign hc, strMem_assignRaw hc, fun k l t => ?_, fun k l p => ?_⟩
  · unfold StrMem.pushBackMove Str.pushBackMove
    by_cases h : s.str.len + 1 < s.str.cap
    · simp only [h, if_true]
      cases h1 : s.str.buf.wr s.str.len c with
      | ok b => simp only [Res.ok_bind]; cases h2 : b.wr (s.str.len + 1) z <;> simp
      | ub => rfl
      | loop => rfl
    · simp only [h, if_false]
      exact strOf_bind (strMem_resize hc s _) (fun s => strMem_pushBack hc f s c)
  · unfold StrMem.copy Str.copy
    cases e1 : t.buf.rdRange 0 t.len with
    | ok xs =>
      simp only [Res.ok_bind, hc, if_true]
      cases e2 : Raw.wrList (List.replicate (t.len + 1) none) 0 xs with
      | ok b => simp only [Res.ok_bind]; cases e3 : b.wr t.len z <;> simp
      | ub => rfl
      | loop => rfl
    | ub => rfl
    | loop => rfl
  · unfold StrMem.ofRaw Str.ofRaw
    cases e0 : Str.rawLen z p with
    | ok n =>
      simp only [Res.ok_bind, hc, if_true]
      cases e1 : Str.rawTake p n with
      | ok xs =>
        simp only [Res.ok_bind]
        cases e2 : Raw.wrList (List.replicate (n + 1) none) 0 xs with
        | ok b => simp only [Res.ok_bind]; cases e3 : b.wr n z <;> simp
        | ub => rfl
        | loop => rfl
      | ub => rfl
      | loop => rfl
    | ub => rfl
    | loop => rfl

/-- **C164 (partial), strings.** An operation for which the capacity suffices asks for no memory: it does not matter whether there is any, and the
record of the allocator stays what it was. -/
theorem C164_fits_partial {s s' : StrMem.St α} {f n : Nat} {c : α} :
    (n ≤ s.str.cap → s.str.buf ≠ [] → StrMem.resize z can s n = .ok s) ∧
      (s.str.len < s.str.cap → StrMem.pushBack z can (f + 1) s c = .ok s' → s'.log = s.log ∧ s'.blk = s.blk ∧ s'.str.cap = s.str.cap) := by
  refine ⟨fun h h1 => by simp [StrMem.resize, h1, Nat.not_lt.mpr h], fun h hr => ?_⟩
  unfold StrMem.pushBack at hr
  simp only [h, if_true] at hr
  obtain ⟨b, _, hr⟩ := Res.bind_eq_ok.mp hr
  obtain ⟨b', _, hr⟩ := Res.bind_eq_ok.mp hr
  cases hr
  exact ⟨rfl, rfl, rfl⟩

/-- **C164 fails for strings.** Whenever a string with storage is asked to grow and there is no memory, `resize` returns as if nothing had happened:
`length()` is what it was and `capacity()` is what was asked for, but the characters are gone (`data()` is null) and the block that holds them has
no owner any more: it exists and is never freed. -/
theorem C164_resize_violated {s : StrMem.St α} {n r : Nat} (hb : s.str.buf ≠ []) (hg : s.str.cap < n) (hno : can n = false)
    (hr : s.blk = some r) (hl : Live r s.log) :
    ∃ s', StrMem.resize z can s n = .ok s' ∧ s'.str.len = s.str.len ∧ s'.str.cap = n ∧ s'.str.buf = [] ∧ s'.blk = none ∧ Live r s'.log ∧
      (0 < s.str.len → s'.str.chars = .ub) := by
  refine ⟨{ s with str := ⟨[], n, s.str.len⟩, blk := none }, by simp [StrMem.resize, hb, hg, hno], rfl, rfl, rfl, rfl, hl, fun h => ?_⟩
  obtain ⟨k, hk⟩ : ∃ k, s.str.len = k + 1 := ⟨s.str.len - 1, by omega⟩
  simp [Str.chars, hk, Raw.rdRange, Raw.rd]

/-- **C164 fails for strings.** After such a `resize` the string cannot even be destroyed: cleaning it, destroying it, appending a character to it
and assigning to it all write through the null pointer. -/
theorem C164_afterwards_violated {s s' : StrMem.St α} {n : Nat} (hb : s.str.buf ≠ []) (hg : s.str.cap < n) (hno : can n = false)
    (hs : StrMem.resize z can s n = .ok s') :
    StrMem.clean z s' = .ub ∧ StrMem.drop z s' = .ub ∧ (∀ f p, StrMem.assignRaw z can (f + 1) s' p = .ub) ∧
      (∀ f t, t.len ≤ n → StrMem.assign z can (f + 1) s' t = .ub) ∧
      (s.str.len < n → ∀ f c, StrMem.pushBack z can (f + 1) s' c = .ub) ∧ (0 < s.str.len → s'.str.popBack z = .ub) := by
  have he : s' = { s with str := ⟨[], n, s.str.len⟩, blk := none } := by
    simp [StrMem.resize, hb, hg, hno] at hs
    exact hs.symm
  have hc : StrMem.clean z s' = .ub := by
    subst he
    simp [StrMem.clean, Str.clean, show n ≠ 0 by omega, Raw.wr]
  refine ⟨hc, by simp [StrMem.drop, hc], fun f p => by simp [StrMem.assignRaw, hc], fun f t ht => ?_, fun hlt f c => ?_, fun h => ?_⟩
  · subst he
    unfold StrMem.assign
    simp only [ht, if_true]
    simp [hc]
  · subst he
    simp [StrMem.pushBack, hlt, Raw.wr]
  · subst he
    simp [Str.popBack, show s.str.len ≠ 0 by omega, Raw.wr]

omit [DecidableEq α] in
theorem le_wanted (s : Str α) (n : Nat) : s.len + n + 2 ≤ StrMem.wanted s n := by unfold StrMem.wanted; split <;> omega

/-- **C164 fails for strings.** Appending, inserting and assigning when the string must grow and there is no memory write through a null pointer,
for every string with storage, every character and every source. -/
theorem C164_grow_violated {s : StrMem.St α} {f : Nat} (hb : s.str.buf ≠ []) (hno : ∀ n, s.str.cap < n → can n = false) :
    (∀ c, s.str.len = s.str.cap → 2 ≤ s.str.cap → StrMem.pushBack z can (f + 2) s c = .ub) ∧
      (∀ c, s.str.cap ≤ s.str.len + 1 → s.str.len ≤ s.str.cap → 2 ≤ s.str.cap → StrMem.pushBackMove z can (f + 1) s c = .ub) ∧
      (∀ p n, Str.rawLen z p = .ok n → s.str.cap < s.str.len + n + 2 → StrMem.pushBackRaw z can (f + 2) s p = .ub) ∧
      (∀ pos c, pos ≤ s.str.len → s.str.cap ≤ s.str.len + 1 → s.str.len + 1 < s.str.cap + s.str.nextCap → 
        StrMem.insert z can (f + 2) s pos c = .ub) ∧
      (∀ t, s.str.len ≤ s.str.cap → s.str.cap < t.len → StrMem.assign z can (f + 2) s t = .ub) ∧
      (∀ p n, Str.rawLen z p = .ok n → 0 < s.str.cap → s.str.cap < n + 1 → StrMem.assignRaw z can (f + 2) s p = .ub) := by
  have hpb : ∀ (s' : StrMem.St α) c f, s'.str.buf = [] → s'.str.len < s'.str.cap → StrMem.pushBack z can (f + 1) s' c = .ub := by
    intro s' c f h1 h2
    simp [StrMem.pushBack, h2, h1, Raw.wr]
  have hrs : ∀ n, s.str.cap < n → StrMem.resize z can s n = .ok { s with str := ⟨[], n, s.str.len⟩, blk := none } := by
    intro n hn
    simp [StrMem.resize, hb, hn, hno n hn]
  refine ⟨fun c h1 h2 => ?_, fun c h1 h3 h2 => ?_, fun p n hp h1 => ?_, fun pos c h0 h1 h2 => ?_, fun t h1 h2 => ?_, fun p n hp h0 h1 => ?_⟩
  · have hn : s.str.cap < s.str.nextCap := by simp [Str.nextCap]; omega
    rw [StrMem.pushBack, if_neg (by omega), hrs _ hn]
    exact hpb _ _ _ rfl (by simp; omega)
  · have hn : s.str.cap < s.str.nextCap := by simp [Str.nextCap]; omega
    rw [StrMem.pushBackMove, if_neg (by omega), hrs _ hn]
    exact hpb _ _ _ rfl (by simp; omega)
  · have hw : s.str.cap < StrMem.wanted s.str n := by unfold StrMem.wanted; split <;> omega
    rw [StrMem.pushBackRaw, hp]
    simp only [Res.ok_bind]
    rw [if_neg (by omega), hrs _ hw]
    simp only [Res.ok_bind]
    rw [StrMem.pushBackRaw, hp]
    simp only [Res.ok_bind]
    split
    · cases hx : Str.rawTake p n with
      | ok xs =>
        simp only [Res.ok_bind]
        cases xs with
        | nil => simp [Raw.wrList, Raw.wr]
        | cons x xs => simp [Raw.wrList, Raw.wr]
      | ub => rfl
      | loop =>
        unfold Str.rawTake at hx
        split at hx
        · cases hx
        · split at hx
          · cases hx
          · split at hx <;> cases hx
    · rename_i hge
      have hw2 : s.str.cap < StrMem.wanted (⟨[], StrMem.wanted s.str n, s.str.len⟩ : Str α) n := by
        have hle : s.str.len + n + 2 ≤ StrMem.wanted (⟨[], StrMem.wanted s.str n, s.str.len⟩ : Str α) n := by
          exact le_wanted (⟨[], StrMem.wanted s.str n, s.str.len⟩ : Str α) n
        omega
      simp [StrMem.resize, hno _ hw2]
  · rw [StrMem.insert, if_neg (by omega), if_neg (by omega), StrMem.reserve]
    rw [hrs _ (by omega)]
    simp only [Res.ok_bind]
    rw [StrMem.insert]
    simp only [if_neg (show ¬ s.str.len < pos by omega), if_pos h2]
    split
    · exact hpb _ _ _ rfl (by simp; omega)
    · simp [Raw.wr]
  · rw [StrMem.assign, if_neg (by omega), StrMem.reserve, hrs _ (by omega)]
    simp only [Res.ok_bind]
    rw [StrMem.assign, if_pos (by simp; omega)]
    simp only [StrMem.clean, Str.clean]
    rw [if_pos (by omega)]
    simp [Raw.wr]
  · have hlen : 0 < s.str.buf.length := List.length_pos_iff.mpr hb
    have hcl : StrMem.clean z s = .ok { s with str := { s.str with buf := s.str.buf.set 0 (some z), len := 0 } } := by
      simp [StrMem.clean, Str.clean, show s.str.cap ≠ 0 by omega, Raw.wr, hlen]
    rw [StrMem.assignRaw, hcl]
    simp only [Res.ok_bind, hp]
    rw [if_neg (by omega), StrMem.reserve]
    have : s.str.buf.set 0 (some z) ≠ [] := by
      intro e
      have := congrArg List.length e
      rw [List.length_set, List.length_nil] at this
      omega
    simp only [StrMem.resize]
    rw [if_pos this, if_pos (by omega), hno _ (by omega)]
    simp [StrMem.assignRaw, StrMem.clean, Str.clean, Raw.wr]

/-- **C164 fails for strings.** Constructing a string, from another one or from a C string, of whatever length, empty ones included, writes through a null
pointer if the one request it makes, for the characters and the terminator, is refused; so does the first `resize` of an empty string. -/
theorem C164_ctor_violated :
    (∀ k l (t : Str α) xs, t.chars = .ok xs → can (t.len + 1) = false → StrMem.copy z can k l t = .ub) ∧
      (∀ k l p n, Str.rawLen z p = .ok n → can (n + 1) = false → StrMem.ofRaw z can k l p = .ub) ∧
      (∀ (s : StrMem.St α) n, s.str.buf = [] → can n = false → StrMem.resize z can s n = .ub) := by
  refine ⟨fun k l t xs hx hno => ?_, fun k l p n hp hno => ?_, fun s n hb hno => by simp [StrMem.resize, hb, hno]⟩
  · unfold StrMem.copy
    rw [show t.buf.rdRange 0 t.len = .ok xs from hx]
    simp only [Res.ok_bind, hno]
    cases xs with
    | nil => simp [Raw.wrList, Raw.wr]
    | cons x xs => simp [Raw.wrList, Raw.wr]
  · unfold StrMem.ofRaw
    rw [hp]
    simp only [Res.ok_bind, hno]
    cases hx : Str.rawTake p n with
    | ok xs =>
      cases xs with
      | nil => simp [Raw.wrList, Raw.wr]
      | cons x xs => simp [Raw.wrList, Raw.wr]
    | ub => rfl
    | loop =>
      unfold Str.rawTake at hx
      split at hx
      · cases hx
      · split at hx
        · cases hx
        · split at hx <;> cases hx

/-- **C164 (partial), constructing strings.** The one request, for the characters and the terminator, decides: if it is met, the string is the one
`Verif.String.Model` says and owns a block of its own, the next one of the allocator, whatever other requests would be refused. -/
theorem C164_ctor_partial :
    (∀ k l (t : Str α), can (t.len + 1) = true → strOf (StrMem.copy z can k l t) = t.copy z) ∧
      (∀ k l p n, Str.rawLen z p = .ok n → can (n + 1) = true → strOf (StrMem.ofRaw z can k l p) = Str.ofRaw z p) ∧
      (∀ k l (t : Str α) s, StrMem.copy z can k l t = .ok s → s.blk = some k ∧ s.next = k + 1 ∧ s.log = .made k :: l) ∧
      (∀ k l p s, StrMem.ofRaw z can k l p = .ok s → s.blk = some k ∧ s.next = k + 1 ∧ s.log = .made k :: l) := by
  refine ⟨fun k l t hc => ?_, fun k l p n e0 hc => ?_, fun k l t s h => ?_, fun k l p s h => ?_⟩
  · unfold StrMem.copy Str.copy
    cases e1 : t.buf.rdRange 0 t.len with
    | ok xs =>
      simp only [Res.ok_bind, hc, if_true]
      cases e2 : Raw.wrList (List.replicate (t.len + 1) none) 0 xs with
      | ok b => simp only [Res.ok_bind]; cases e3 : b.wr t.len z <;> simp
      | ub => rfl
      | loop => rfl
    | ub => rfl
    | loop => rfl
  · unfold StrMem.ofRaw Str.ofRaw
    rw [e0]
    simp only [Res.ok_bind, hc, if_true]
    cases e1 : Str.rawTake p n with
    | ok xs =>
      simp only [Res.ok_bind]
      cases e2 : Raw.wrList (List.replicate (n + 1) none) 0 xs with
      | ok b => simp only [Res.ok_bind]; cases e3 : b.wr n z <;> simp
      | ub => rfl
      | loop => rfl
    | ub => rfl
    | loop => rfl
  · unfold StrMem.copy at h
    simp only [Res.bind_eq_ok] at h
    obtain ⟨_, _, _, _, _, _, h⟩ := h
    cases h
    exact ⟨rfl, rfl, rfl⟩
  · unfold StrMem.ofRaw at h
    simp only [Res.bind_eq_ok] at h
    obtain ⟨_, _, _, _, _, _, _, _, h⟩ := h
    cases h
    exact ⟨rfl, rfl, rfl⟩

example : StrMem.ofRaw 0 (fun n => n == 3) 4 [] (some [5, 6, 0]) = .ok ⟨⟨[some 5, some 6, some 0], 3, 2⟩, some 4, 5, [.made 4]⟩ := by decide
example : StrMem.copy 0 (fun n => n == 3) 4 [] (⟨[some 5, some 6, some 0], 3, 2⟩ : Str Nat) =
    .ok ⟨⟨[some 5, some 6, some 0], 3, 2⟩, some 4, 5, [.made 4]⟩ := by decide

/-- The string "ab" in block 7, its capacity used up. -/
def exAB : StrMem.St Nat := ⟨⟨[some 1, some 2, some 0], 3, 2⟩, some 7, 8, [.made 7]⟩

-- non-vacuity: growing "ab" without memory loses its characters and its block
example : StrMem.resize 0 (fun _ => false) exAB 9 = .ok ⟨⟨[], 9, 2⟩, none, 8, [.made 7]⟩ := by decide
example : StrMem.resize 0 (fun _ => true) exAB 5 = .ok ⟨⟨[some 1, some 2, some 0, none, none], 5, 2⟩, some 8, 9, [.made 8, .closed 7, .made 7]⟩ := by decide
example : StrMem.drop 0 exAB = .ok [.closed 7, .made 7] := by decide
example : exAB.str.buf ≠ [] ∧ exAB.blk = some 7 ∧ Live 7 exAB.log := by decide
example : Str.rawLen 0 (some [5, 6, 0]) = .ok 2 ∧ exAB.str.cap < exAB.str.len + 2 + 2 := by decide
example : StrMem.pushBackRaw 0 (fun n => n ≤ 3) 5 exAB (some [5, 6, 0]) = .ub := by decide
example : StrMem.insert 0 (fun n => n ≤ 3) 5 exAB 1 9 = .ub := by decide

end String

section List
open LL
variable {α : Type}

/-- **C164 (partial), lists.** While there is memory, the operations are those of `Verif.List.Model`. -/
theorem C164_list_partial (m : Mem α) (o fuel : Nat) (it : Ptr) (x : α) :
    pushBackMem true m o x = pushBack m o x ∧ pushFrontMem true m o x = pushFront m o x ∧
      insertMem true fuel m o it x = LL.insert fuel m o it x := by
  refine ⟨rfl, rfl, ?_⟩
  unfold insertMem LL.insert
  rfl

/-- **C164 fails for lists.** Appending or prepending to any list, empty or not, without memory goes through a null pointer, and so does inserting, wherever
the size of the list can be determined and is not zero. -/
theorem C164_list_violated {m : Mem α} (hn : m.cell .null = none) (o : Nat) (x : α) :
    pushBackMem false m o x = .ub ∧ pushFrontMem false m o x = .ub ∧
      (∀ fuel it n, size fuel m o = .ok (n + 1) → insertMem false fuel m o it x = .ub) := by
  have h1 : pushBackMem false m o x = .ub := by
    unfold pushBackMem
    simp only [allocMem]
    by_cases hh : m.head o ≠ .null
    · simp [hh, setPrev, hn]
    · simp only [Bool.false_eq_true, if_false, hh]
      unfold updateLinks updateHeadLinks setNext setPrev
      simp only [setTail, setHead]
      cases hf : m.cell (.first o) with
      | none => rfl
      | some c => simp [store, hn]
  have h2 : pushFrontMem false m o x = .ub := by
    unfold pushFrontMem
    simp only [allocMem]
    by_cases hh : m.head o ≠ .null
    · simp only [Bool.false_eq_true, if_false]
      rw [if_pos hh]
      unfold setPrev
      cases hf : m.cell (m.head o) with
      | none => simp
      | some c => simp [setNext, store, hn, Ne.symm hh]
    · simp only [Bool.false_eq_true, if_false, hh]
      unfold updateLinks updateHeadLinks setNext setPrev
      simp only [setTail, setHead]
      cases hf : m.cell (.first o) with
      | none => rfl
      | some c => simp [store, hn]
  refine ⟨h1, h2, fun fuel it n hs => ?_⟩
  unfold insertMem
  rw [hs]
  simp only [Res.ok_bind, Nat.succ_ne_zero, if_false]
  split
  · exact h2
  · split
    · exact h1
    · simp only [allocMem, Bool.false_eq_true, if_false]
      cases hl : load m it with
      | ok c =>
        simp only [Res.ok_bind]
        by_cases hp : c.prev = .null
        · simp [hp, setNext, hn]
        · unfold setNext
          cases hc : m.cell c.prev with
          | none => rfl
          | some d => simp [setPrev, store, hn, Ne.symm hp]
      | ub => rfl
      | loop =>
        unfold load at hl
        split at hl <;> cases hl

-- non-vacuity: a list of one element
example : ((pushBackMem true (construct (emptyMem : Mem Nat) 0) 0 5).bind fun m => size 5 m 0) = .ok 1 ∧
    (construct (emptyMem : Mem Nat) 0).cell .null = none := by
  constructor
  · decide
  · rfl

end List

section Vector
open Vec
variable {α : Type}

/-- **C164 (partial), vectors.** While there is memory, the constructors are those of `Verif.Vector.Model`; without memory the empty vector can still be copied. -/
theorem C164_vector_partial :
    (∀ v : Vec α, copyMem true v = v.copy) ∧ (∀ xs : List α, ofInitListMem true xs = ofInitList xs) ∧ (∀ n, (ofSizeMem true n : Vec α) = ofSize n) ∧
      (∀ (v : Vec α) mem, v.size = 0 → ∃ b, copyMem mem v = .ok ⟨b, 0, 0⟩) := by
  refine ⟨fun _ => rfl, fun _ => rfl, fun _ => rfl, fun v mem h => ?_⟩
  exact ⟨created mem 0, by simp [copyMem, h, Cells.getRange, Cells.constructList]⟩

/-- **C164 fails for vectors.** Copying any vector that has elements, and making one from a list of values, constructs the elements behind a null pointer if there
is no memory.  `Vector(n)` returns a vector that says it has `n * 3 / 2` elements and has none: every access to them is undefined, and so is its destruction. -/
theorem C164_vector_violated :
    (∀ (v : Vec α) x xs, v.buf.getRange 0 v.size = .ok (x :: xs) → copyMem false v = .ub) ∧
      (∀ (x : α) xs, ofInitListMem false (x :: xs) = .ub) ∧
      (∀ n, 2 ≤ n * 3 → (ofSizeMem false n : Vec α).size = n * 3 / 2 ∧ 0 < (ofSizeMem false n : Vec α).size ∧
        (∀ i, (ofSizeMem false n : Vec α).buf.get i = .ub) ∧ (∀ triv, (ofSizeMem false n : Vec α).clean triv = .ub)) := by
  refine ⟨fun v x xs h => ?_, fun x xs => ?_, fun n h => ?_⟩
  · unfold copyMem
    rw [h]
    simp [created, Cells.constructList, Cells.construct]
  · simp [ofInitListMem, created, Cells.constructList, Cells.construct]
  · refine ⟨rfl, by simp [ofSizeMem]; omega, fun i => by simp [ofSizeMem, Cells.get], fun triv => ?_⟩
    obtain ⟨k, hk⟩ : ∃ k, n * 3 / 2 = k + 1 := ⟨n * 3 / 2 - 1, by omega⟩
    simp [ofSizeMem, clean, hk, Cells.destroyRange, Cells.destroy]

-- non-vacuity
example : (⟨[.live 4], 1, 1⟩ : Vec Nat).buf.getRange 0 1 = .ok [4] := rfl

namespace Flame
example := C164_string_partial (α := Nat) (z := 0) (can := fun _ => true) (fun _ => rfl)
example := C164_resize_violated (z := 0) (can := fun _ => false) (s := exAB) (n := 9) (by decide) (by decide) rfl rfl (by decide)
example := C164_afterwards_violated (z := 0) (can := fun _ => false) (s := exAB) (n := 9) (by decide) (by decide) rfl rfl
example := C164_grow_violated (z := 0) (can := fun n => decide (n ≤ 3)) (s := exAB) (f := 3) (by decide)
  (fun n h => by simp only [exAB] at h; simp; omega)
end Flame

end Vector
end Flame
