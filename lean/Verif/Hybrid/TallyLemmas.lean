import Verif.Hybrid.Tally
import Verif.Array.TallyLemmas

/-! # Balance of constructor and destructor calls of `HybridVector`: lemmas -/

namespace Flame
namespace HVec
variable {α : Type}
open Vec (Bal)

/-- Are the elements in allocated memory? -/
def isVec : HVec α → Bool
  | .vec _ => true
  | _ => false

/-- What `clean` of an array does to the balance, whatever the array holds at the moment. -/
theorem arr_cleanT {triv : Bool} {s : SVec α} {l : List α} (h : SVec.Rep s l) {t : Tally} {n k : Nat} (hb : Bal t (n + s.size) k) :
    ∃ r, s.cleanT triv t = .ok r ∧ Bal r.2 n k := by
  obtain ⟨s', a, _, _⟩ := SVec.clean_ok (triv := triv) h
  rw [SVec.clean] at a
  obtain ⟨b, h1, h2⟩ := Res.bind_eq_ok.1 a
  refine ⟨(⟨b, 0⟩, t.finish s.size), by simp only [SVec.cleanT, Cells.destroyRangeT_ok t h1, Res.ok_bind], ?_⟩
  simp only [Bal, Tally.finish] at *; omega

theorem vec_cleanT {triv : Bool} {v : Vec α} {l : List α} (h : Vec.Rep v l) {t : Tally} {n k : Nat} (hb : Bal t (n + v.size) k) :
    ∃ r, v.cleanT triv t = .ok r ∧ Bal r.2 n k := by
  obtain ⟨s', a, _, _⟩ := Vec.clean_ok (triv := triv) h
  rw [Vec.clean] at a
  obtain ⟨b, h1, h2⟩ := Res.bind_eq_ok.1 a
  refine ⟨({ v with buf := b, size := 0 }, t.finish v.size), by simp only [Vec.cleanT, Cells.destroyRangeT_ok t h1, Res.ok_bind], ?_⟩
  simp only [Bal, Tally.finish] at *; omega

theorem resetT_bal {triv : Bool} {N : Nat} {h : HVec α} {l : List α} (hr : HRep N h l) {t : Tally} {n k : Nat}
    (hb : Bal t (n + h.size) k) : ∃ t', resetT triv h t = .ok (.unset, t') ∧ Bal t' n k := by
  match h, hr with
  | .unset, _ => exact ⟨t, rfl, by simpa [size] using hb⟩
  | .arr s, hr =>
    obtain ⟨r, h1, h2⟩ := arr_cleanT (triv := triv) hr.1 hb
    exact ⟨r.2, by simp only [resetT, h1, Res.ok_bind], h2⟩
  | .vec v, hr =>
    obtain ⟨r, h1, h2⟩ := vec_cleanT (triv := triv) hr.1 hb
    exact ⟨r.2, by simp only [resetT, h1, Res.ok_bind], h2⟩

theorem Bal.shift {t : Tally} {n m k : Nat} (h : Bal t n (m + k)) : Bal t (n + m) k := by simp only [Bal] at *; omega
theorem Bal.unshift {t : Tally} {n m k : Nat} (h : Bal t (n + m) k) : Bal t n (m + k) := by simp only [Bal] at *; omega

theorem toVectorT_ok {triv : Bool} {can re : Nat → Bool} {f : Nat} {s : SVec α} {l : List α} (hs : SVec.Rep s l) {v : Vec α}
    (h : toVector can f s = .ok v) {t : Tally} {k : Nat} (hb : Bal t s.size k) :
    ∃ t', toVectorT triv can re f s t = .ok (v, t') ∧ Bal t' v.size k := by
  rw [toVector] at h
  obtain ⟨xs, h1, h2⟩ := Res.bind_eq_ok.1 h
  have hb0 : Bal t (Vec.empty : Vec α).size (s.size + k) := by simp only [Bal, Vec.empty] at *; omega
  obtain ⟨t1, h3, h4⟩ := Vec.pushBackListT_ok (re := re) h2 (Vec.reserveT_bal (re := re) hb0).2
  obtain ⟨t2, h5, h6⟩ := resetT_bal (triv := triv) (N := s.cap) (h := .arr s) ⟨hs, rfl⟩ (t := t1) (n := v.size) (k := k)
    (by simp only [Bal, size] at *; omega)
  refine ⟨t2, ?_, h6⟩
  simp only [toVectorT, h1, Res.ok_bind]
  have h3' : Vec.pushBackListT can re f (Vec.reserveT can re Vec.empty (s.size * 2) t).1 xs
      (Vec.reserveT can re Vec.empty (s.size * 2) t).2 = .ok (v, t1) := h3
  rw [h3']
  simp only [Res.ok_bind, h5]

theorem toArrayT_ok {triv : Bool} {N : Nat} {v : Vec α} {l : List α} (hv : Vec.Rep v l) (hN : v.size ≤ N) {s : SVec α}
    (h : toArray N v = .ok s) {t : Tally} {k : Nat} (hb : Bal t v.size k) :
    ∃ t', toArrayT triv N v t = .ok (s, t') ∧ Bal t' s.size k := by
  obtain ⟨s', e1, e2, _⟩ := toArray_ok hv (N := N) (by rw [← hv.2.1]; exact hN)
  rw [e1] at h
  simp only [Res.ok.injEq] at h; subst h
  rw [toArray] at e1
  obtain ⟨xs, h1, h2⟩ := Res.bind_eq_ok.1 e1
  have hE : (SVec.empty N : SVec α).size = 0 := rfl
  have push : ∀ (t : Tally) (n k : Nat), Bal t n k → ∃ t', (SVec.empty N).pushBackListT xs t = .ok (s', t') ∧ Bal t' (n + s'.size) k := by
    intro t n k hb
    obtain ⟨t', a, b⟩ := SVec.pushBackListT_ok (t := t) (k := n + k) h2 (by simp only [Bal, hE] at *; omega)
    exact ⟨t', a, by simp only [Bal] at *; omega⟩
  obtain ⟨t1, a1, b1⟩ := push t _ _ hb
  obtain ⟨r2, a2, b2⟩ := vec_cleanT (triv := triv) hv (t := t1) (n := s'.size) (k := k) (by simp only [Bal] at *; omega)
  obtain ⟨t3, a3, b3⟩ := push r2.2 _ _ b2
  obtain ⟨t4, a4, b4⟩ := push t3 _ _ b3
  obtain ⟨r5, a5, b5⟩ := arr_cleanT (triv := triv) e2 b4
  obtain ⟨r6, a6, b6⟩ := arr_cleanT (triv := triv) e2 b5
  exact ⟨r6.2, by simp only [toArrayT, resetT, h1, a1, a2, a3, a4, a5, a6, Res.ok_bind], b6⟩

theorem shrinkArrT_ok {triv : Bool} {s : SVec α} {l : List α} (hs : SVec.Rep s l) {h' : HVec α} (h : shrinkArr s = .ok h')
    {t : Tally} {k : Nat} (hb : Bal t s.size k) :
    ∃ t', shrinkArrT triv s t = .ok (h', t') ∧ Bal t' h'.size k ∧ h'.isVec = false := by
  unfold shrinkArr at h
  split at h
  · rename_i hz
    simp only [Res.ok.injEq] at h; subst h
    obtain ⟨t', a, b⟩ := resetT_bal (triv := triv) (N := s.cap) (h := .arr s) (l := l) ⟨hs, rfl⟩ (t := t) (n := 0) (k := k)
      (by simpa [size] using hb)
    exact ⟨t', by rw [shrinkArrT, if_pos hz]; exact a, b, rfl⟩
  · rename_i hz
    simp only [Res.ok.injEq] at h; subst h
    exact ⟨t, by rw [shrinkArrT, if_neg hz], hb, rfl⟩

theorem shrinkVecT_ok {triv : Bool} {N : Nat} {v : Vec α} {l : List α} (hv : Vec.Rep v l) {h' : HVec α} (h : shrinkVec N v = .ok h')
    {t : Tally} {k : Nat} (hb : Bal t v.size k) :
    ∃ t', shrinkVecT triv N v t = .ok (h', t') ∧ Bal t' h'.size k ∧ h'.isVec = decide (N ≤ v.size) := by
  unfold shrinkVec at h
  split at h
  · rename_i hz
    obtain ⟨s, h1, h2⟩ := Res.bind_eq_ok.1 h
    simp only [Res.ok.injEq] at h2; subst h2
    obtain ⟨t', a, b⟩ := toArrayT_ok (triv := triv) hv (by omega) h1 hb
    refine ⟨t', by rw [shrinkVecT, if_pos hz, a]; rfl, b, ?_⟩
    simp only [isVec]; symm; simp; omega
  · rename_i hz
    simp only [Res.ok.injEq] at h; subst h
    refine ⟨t, by rw [shrinkVecT, if_neg hz], hb, ?_⟩
    simp only [isVec]; symm; simp; omega

end HVec
end Flame
