import Verif.Alloc.Blocks

/-!
# C164: the blocks of a string over an allocator that may answer null
-/

namespace Flame
open Own (Ev Live Proper ReleasedOnce)
open StrMem

namespace Raw
variable {α : Type u}

theorem wr_length {b b' : Raw α} {i : Nat} {a : α} (h : wr b i a = .ok b') : b'.length = b.length := by
  unfold wr at h
  split at h
  · cases h; simp
  · cases h

theorem wrList_length {xs : List α} {b b' : Raw α} {i : Nat} (h : wrList b i xs = .ok b') : b'.length = b.length := by
  induction xs generalizing b i with
  | nil => cases h; rfl
  | cons x xs ih =>
    unfold wrList at h
    obtain ⟨c, h1, h2⟩ := Res.bind_eq_ok.mp h
    rw [ih h2, wr_length h1]

theorem copyUp_length {n : Nat} {b b' : Raw α} {pos d : Nat} (h : copyUp b pos d n = .ok b') : b'.length = b.length := by
  induction n generalizing b with
  | zero => cases h; rfl
  | succ n ih =>
    unfold copyUp at h
    cases h1 : rd b (pos + n) with
    | ok a =>
      rw [h1] at h
      simp only at h
      cases h2 : wr b (pos + n + d) a with
      | ok c =>
        rw [h2] at h
        simp only at h
        rw [ih h, wr_length h2]
      | ub => rw [h2] at h; cases h
      | loop => rw [h2] at h; cases h
    | ub => rw [h1] at h; cases h
    | loop => rw [h1] at h; cases h

end Raw

variable {α : Type} [DecidableEq α] {z : α} {can : Nat → Bool}

/-- The string holds its only block; without a failed request no other block exists. -/
structure BlkInv (can : Nat → Bool) (s : StrMem.St α) : Prop where
  proper : Proper s.log
  live : ∀ r, s.blk = some r → Live r s.log
  fresh : ∀ r, (.made r ∈ s.log ∨ .closed r ∈ s.log) → r < s.next
  null : s.str.buf = [] ↔ s.blk = none
  all : (∀ n, can n = true) → ∀ r, Live r s.log → s.blk = some r

omit [DecidableEq α] in
theorem BlkInv.same {s s' : StrMem.St α} (h : BlkInv can s) (h1 : s'.log = s.log) (h2 : s'.blk = s.blk) (h3 : s'.next = s.next)
    (h4 : s'.str.buf.length = s.str.buf.length) : BlkInv can s' := by
  refine ⟨h1 ▸ h.proper, ?_, ?_, ?_, ?_⟩
  · rw [h1, h2]; exact h.live
  · rw [h1, h3]; exact h.fresh
  · rw [h2, ← h.null, ← List.length_eq_zero_iff, ← List.length_eq_zero_iff, h4]
  · rw [h1, h2]; exact h.all

omit [DecidableEq α] in
/-- A new block while none is held and, if no request ever fails, none exists. -/
theorem BlkInv.made {s : StrMem.St α} {t : Str α} {l : List Ev} (hp : Proper l) (hf : ∀ r, (.made r ∈ l ∨ .closed r ∈ l) → r < s.next)
    (ha : (∀ n, can n = true) → ∀ r, ¬ Live r l) (ht : t.buf ≠ []) : BlkInv can (⟨t, some s.next, s.next + 1, .made s.next :: l⟩ : StrMem.St α) := by
  have hn1 : Ev.made s.next ∉ l := fun h => by have := hf _ (Or.inl h); omega
  have hn2 : Ev.closed s.next ∉ l := fun h => by have := hf _ (Or.inr h); omega
  refine ⟨⟨hn1, hn2, hp⟩, ?_, ?_, ?_, ?_⟩
  · intro r hr
    cases hr
    exact ⟨by simp, by simpa using hn2⟩
  · intro r hr
    simp at hr
    rcases hr with (hr | hr) | hr
    · subst hr; exact Nat.lt_succ_self _
    · exact Nat.lt_succ_of_lt (hf r (Or.inl hr))
    · exact Nat.lt_succ_of_lt (hf r (Or.inr hr))
  · simp [ht]
  · intro hc r hr
    by_cases e : r = s.next
    · rw [e]
    · exfalso
      refine ha hc r ⟨?_, ?_⟩
      · have := hr.1; simp [e] at this; exact this
      · have := hr.2; simp at this; exact this

omit [DecidableEq α] in
theorem freed_proper {s : StrMem.St α} (h : BlkInv can s) : Proper (freed s.blk s.log) ∧
    (∀ r, (.made r ∈ freed s.blk s.log ∨ .closed r ∈ freed s.blk s.log) → r < s.next) ∧
    ((∀ n, can n = true) → ∀ r, ¬ Live r (freed s.blk s.log)) := by
  cases hb : s.blk with
  | none =>
    refine ⟨h.proper, h.fresh, fun hc r hr => ?_⟩
    have := h.all hc r hr
    rw [hb] at this
    cases this
  | some q =>
    refine ⟨⟨h.live q hb, h.proper⟩, fun r hr => ?_, fun hc r hr => ?_⟩
    · simp [freed] at hr
      rcases hr with hr | hr | hr
      · exact h.fresh r (Or.inl hr)
      · rw [hr]; exact h.fresh q (Or.inl (h.live q hb).1)
      · exact h.fresh r (Or.inr hr)
    · have h1 := hr.1
      have h2 := hr.2
      simp [freed] at h1 h2
      have := h.all hc r ⟨h1, h2.2⟩
      rw [hb] at this
      cases this
      exact h2.1 rfl

theorem resize_inv {s s' : StrMem.St α} {n : Nat} (h : BlkInv can s) (hs : StrMem.resize z can s n = .ok s') : BlkInv can s' := by
  unfold StrMem.resize at hs
  split at hs
  · rename_i hb
    split at hs
    · rename_i hn
      split at hs
      · cases hs
        obtain ⟨h1, h2, h3⟩ := freed_proper h
        refine BlkInv.made (s := s) h1 h2 h3 ?_
        intro e
        have := congrArg List.length e
        have hl : 0 < s.str.buf.length := List.length_pos_iff.mpr hb
        simp only [Raw.grow, List.length_append, List.length_take, List.length_replicate, List.length_nil] at this
        omega
      · rename_i hno
        cases hs
        refine ⟨h.proper, by simp, h.fresh, by simp, fun hc => ?_⟩
        rw [hc] at hno
        exact absurd rfl hno
    · cases hs; exact h
  · rename_i hb
    split at hs
    · obtain ⟨b, h1, h2⟩ := Res.bind_eq_ok.mp hs
      cases h2
      have hnull : s.blk = none := h.null.mp (by simpa using hb)
      refine BlkInv.made (s := s) h.proper h.fresh (fun hc r hr => ?_) ?_
      · have := h.all hc r hr
        rw [hnull] at this
        cases this
      · intro e
        have e : b = [] := e
        have := Raw.wr_length h1
        rw [e] at this
        simp at this
        rw [← this] at h1
        simp [Raw.wr] at h1
    · cases hs

omit [DecidableEq α] in
theorem clean_inv {s s' : StrMem.St α} (h : BlkInv can s) (hs : StrMem.clean z s = .ok s') : BlkInv can s' := by
  unfold StrMem.clean at hs
  obtain ⟨t, h1, h2⟩ := Res.bind_eq_ok.mp hs
  cases h2
  refine h.same rfl rfl rfl ?_
  unfold Str.clean at h1
  split at h1
  · obtain ⟨b, h3, h4⟩ := Res.bind_eq_ok.mp h1
    cases h4
    exact Raw.wr_length h3
  · cases h1; rfl

theorem pushBack_inv {f : Nat} {s s' : StrMem.St α} {c : α} (h : BlkInv can s) (hs : StrMem.pushBack z can f s c = .ok s') : BlkInv can s' := by
  induction f generalizing s with
  | zero => cases hs
  | succ f ih =>
    unfold StrMem.pushBack at hs
    split at hs
    · obtain ⟨b, h1, hs⟩ := Res.bind_eq_ok.mp hs
      obtain ⟨b', h2, hs⟩ := Res.bind_eq_ok.mp hs
      cases hs
      exact h.same rfl rfl rfl (by simp only; rw [Raw.wr_length h2, Raw.wr_length h1])
    · obtain ⟨s1, h1, hs⟩ := Res.bind_eq_ok.mp hs
      exact ih (resize_inv h h1) hs

theorem pushBackRaw_inv {f : Nat} {s s' : StrMem.St α} {p : CPtr α} (h : BlkInv can s) (hs : StrMem.pushBackRaw z can f s p = .ok s') :
    BlkInv can s' := by
  induction f generalizing s with
  | zero => cases hs
  | succ f ih =>
    unfold StrMem.pushBackRaw at hs
    obtain ⟨n, _, hs⟩ := Res.bind_eq_ok.mp hs
    split at hs
    · obtain ⟨xs, _, hs⟩ := Res.bind_eq_ok.mp hs
      obtain ⟨b, h1, hs⟩ := Res.bind_eq_ok.mp hs
      obtain ⟨b', h2, hs⟩ := Res.bind_eq_ok.mp hs
      cases hs
      exact h.same rfl rfl rfl (by simp only; rw [Raw.wr_length h2, Raw.wrList_length h1])
    · obtain ⟨s1, h1, hs⟩ := Res.bind_eq_ok.mp hs
      exact ih (resize_inv h h1) hs

theorem insert_inv {f : Nat} {s s' : StrMem.St α} {pos : Nat} {c : α} (h : BlkInv can s) (hs : StrMem.insert z can f s pos c = .ok s') :
    BlkInv can s' := by
  induction f generalizing s with
  | zero => cases hs
  | succ f ih =>
    unfold StrMem.insert at hs
    split at hs
    · cases hs
    · split at hs
      · split at hs
        · exact pushBack_inv h hs
        · obtain ⟨b1, h1, hs⟩ := Res.bind_eq_ok.mp hs
          obtain ⟨b2, h2, hs⟩ := Res.bind_eq_ok.mp hs
          obtain ⟨b3, h3, hs⟩ := Res.bind_eq_ok.mp hs
          obtain ⟨b4, h4, hs⟩ := Res.bind_eq_ok.mp hs
          cases hs
          exact h.same rfl rfl rfl (by simp only; rw [Raw.wr_length h4, Raw.wr_length h3, Raw.copyUp_length h2, Raw.wr_length h1])
      · obtain ⟨s1, h1, hs⟩ := Res.bind_eq_ok.mp hs
        exact ih (resize_inv h h1) hs

theorem assign_inv {f : Nat} {s s' : StrMem.St α} {t : Str α} (h : BlkInv can s) (hs : StrMem.assign z can f s t = .ok s') : BlkInv can s' := by
  induction f generalizing s with
  | zero => cases hs
  | succ f ih =>
    unfold StrMem.assign at hs
    split at hs
    · obtain ⟨s1, h1, hs⟩ := Res.bind_eq_ok.mp hs
      obtain ⟨xs, _, hs⟩ := Res.bind_eq_ok.mp hs
      obtain ⟨b, h2, hs⟩ := Res.bind_eq_ok.mp hs
      obtain ⟨b', h3, hs⟩ := Res.bind_eq_ok.mp hs
      cases hs
      exact (clean_inv h h1).same rfl rfl rfl (by simp only; rw [Raw.wr_length h3, Raw.wrList_length h2])
    · obtain ⟨s1, h1, hs⟩ := Res.bind_eq_ok.mp hs
      exact ih (resize_inv h h1) hs

theorem assignRaw_inv {f : Nat} {s s' : StrMem.St α} {p : CPtr α} (h : BlkInv can s) (hs : StrMem.assignRaw z can f s p = .ok s') :
    BlkInv can s' := by
  induction f generalizing s with
  | zero => cases hs
  | succ f ih =>
    unfold StrMem.assignRaw at hs
    obtain ⟨s1, h1, hs⟩ := Res.bind_eq_ok.mp hs
    obtain ⟨n, _, hs⟩ := Res.bind_eq_ok.mp hs
    split at hs
    · obtain ⟨xs, _, hs⟩ := Res.bind_eq_ok.mp hs
      obtain ⟨b, h2, hs⟩ := Res.bind_eq_ok.mp hs
      obtain ⟨b', h3, hs⟩ := Res.bind_eq_ok.mp hs
      cases hs
      exact (clean_inv h h1).same rfl rfl rfl (by simp only; rw [Raw.wr_length h3, Raw.wrList_length h2])
    · obtain ⟨s2, h2, hs⟩ := Res.bind_eq_ok.mp hs
      exact ih (resize_inv (clean_inv h h1) h2) hs

theorem strMem_step_inv {s s' : StrMem.St α} {o : StrMem.Op α} (h : BlkInv can s) (hs : StrMem.step z can s o = .ok s') : BlkInv can s' := by
  cases o with
  | resize n => exact resize_inv h hs
  | reserve n => exact resize_inv h hs
  | clean => exact clean_inv h hs
  | pushBack f c => exact pushBack_inv h hs
  | pushBackMove f c =>
    replace hs : StrMem.pushBackMove z can f s c = .ok s' := hs
    unfold StrMem.pushBackMove at hs
    split at hs
    · obtain ⟨b, h1, hs⟩ := Res.bind_eq_ok.mp hs
      obtain ⟨b', h2, hs⟩ := Res.bind_eq_ok.mp hs
      cases hs
      exact h.same rfl rfl rfl (by simp only; rw [Raw.wr_length h2, Raw.wr_length h1])
    · obtain ⟨s1, h1, hs⟩ := Res.bind_eq_ok.mp hs
      exact pushBack_inv (resize_inv h h1) hs
  | pushBackRaw f p => exact pushBackRaw_inv h hs
  | insert f pos c => exact insert_inv h hs
  | assign f t => exact assign_inv h hs
  | assignRaw f p => exact assignRaw_inv h hs

theorem strMem_run_inv {os : List (StrMem.Op α)} {s s' : StrMem.St α} (h : BlkInv can s) (hs : runOps (StrMem.step z can) s os = .ok s') :
    BlkInv can s' := by
  induction os generalizing s with
  | nil => cases hs; exact h
  | cons o os ih =>
    unfold runOps at hs
    cases ho : StrMem.step z can s o with
    | ok t => rw [ho] at hs; exact ih (strMem_step_inv h ho) hs
    | ub => rw [ho] at hs; cases hs
    | loop => rw [ho] at hs; cases hs

/-- **C164 (partial), strings.** Whatever is done to a string, and whatever the allocator answers, no block is freed twice and none is freed that the string does not
hold.  If no request fails, every block it ever had has been freed exactly once when it is gone. -/
theorem C164_blocks_partial {os : List (StrMem.Op α)} {s : StrMem.St α} {l : List Ev}
    (hs : runOps (StrMem.step z can) StrMem.fresh os = .ok s) (hd : StrMem.drop z s = .ok l) :
    Proper l ∧ ((∀ n, can n = true) → ReleasedOnce l) := by
  have h0 : BlkInv can (StrMem.fresh : StrMem.St α) :=
    ⟨trivial, by simp [StrMem.fresh], by simp [StrMem.fresh], by simp [StrMem.fresh, Str.empty], fun _ r hr => by simp [StrMem.fresh, Live] at hr⟩
  have h := strMem_run_inv h0 hs
  unfold StrMem.drop at hd
  obtain ⟨t, h1, h2⟩ := Res.bind_eq_ok.mp hd
  cases h2
  obtain ⟨hp, _, ha⟩ := freed_proper (clean_inv h h1)
  refine ⟨hp, fun hc r hr => ?_⟩
  have hle := hp.closed_le_one r
  have : Ev.closed r ∈ freed t.blk t.log := Classical.byContradiction fun hn => ha hc r ⟨hr, hn⟩
  have := List.count_pos_iff.mpr this
  omega

-- non-vacuity: a string grows twice and is destroyed; its blocks 0, 1 and 2 have been freed
example : ((runOps (StrMem.step 0 (fun _ => true)) StrMem.fresh [.resize 2, .pushBack 3 5, .assignRaw 3 (some [4, 4, 4, 0]), .pushBackRaw 3 (some [7, 0])]).bind
    (StrMem.drop 0)) = .ok [.closed 2, .made 2, .closed 1, .made 1, .closed 0, .made 0] := by decide

end Flame
