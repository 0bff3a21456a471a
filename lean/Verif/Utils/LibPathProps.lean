import Verif.Utils.LibPath
import Verif.String.Lemmas
import Verif.Array.Lemmas

/-! # C54: the library path is directory, separator, prefix, name, suffix, for all lengths -/

namespace Flame
open LibPath

namespace LibPathLemmas
variable {α : Type} [DecidableEq α] {z slash : α}
open Str (Src Full)

theorem put_ok {a : SVec α} {l xs : List α} {p : CPtr α} (h : SVec.Rep a l) (hp : Src z p xs) (hl : l.length + xs.length ≤ a.cap) :
    ∃ a', put z a p = .ok a' ∧ SVec.Rep a' (l ++ xs) ∧ a'.cap = a.cap := by
  obtain ⟨a', h1, h2, h3⟩ := SVec.insertRange_ok (triv := true) h (p := l.length) (Nat.le_refl _) xs
  refine ⟨a', ?_, ?_, h3⟩
  · simp only [put, hp.rawLen, hp.rawTake, Res.ok_bind, h.size_eq]; exact h1
  · rw [if_pos (by omega)] at h2; simpa using h2

theorem pushBackRaw_room {s : Str α} {xs ys : List α} {p : CPtr α} (h : Full z s xs) (hp : Src z p ys)
    (hl : xs.length + ys.length + 2 < s.cap) (f : Nat) :
    ∃ s', Str.pushBackRaw z (f + 1) s p = .ok s' ∧ Full z s' (xs ++ ys) ∧ s'.cap = s.cap := by
  obtain ⟨b, h1, h2⟩ := Str.write_tail (ys := ys) h (by omega)
  refine ⟨⟨b, s.cap, xs.length + ys.length⟩, ?_, h2, rfl⟩
  rw [Res.bind_eq_ok] at h1
  obtain ⟨b1, h3, h4⟩ := h1
  simp only [Str.pushBackRaw, hp.rawLen, Res.ok_bind, h.len, hl, if_true, hp.rawTake, h3, h4]

theorem insertRaw_end {s : Str α} {xs ys : List α} {p : CPtr α} (h : Full z s xs) (hp : Src z p ys)
    (hl : ys.length + xs.length < s.cap) (f : Nat) :
    ∃ s', Str.insertRaw z (f + 1) s s.len p = .ok s' ∧ Full z s' (xs ++ ys) ∧ s'.cap = s.cap := by
  have hln := h.len
  by_cases hy : ys.length = 0
  · have : ys = [] := List.eq_nil_of_length_eq_zero hy
    subst this
    exact ⟨s, by simp only [Str.insertRaw, hp.rawLen, hp.rawTake, Res.ok_bind]; simp [Str.insertRange], by simpa using h, rfl⟩
  · obtain ⟨s', h1, h2, h3⟩ := Str.pushBackList_ok (ys := ys) h (by omega) f
    refine ⟨s', ?_, h2, h3⟩
    simp only [Str.insertRaw, hp.rawLen, hp.rawTake, Res.ok_bind]
    rw [Str.insertRange, if_neg (by omega), if_neg hy, if_pos (by omega), if_pos rfl]
    exact h1

/-- The specification: directory and separator (when a directory is given), prefix, name, suffix. -/
def path (slash : α) (dir : CPtr α) (d p n s : List α) : List α := (if dir.isSome then d ++ [slash] else []) ++ p ++ n ++ s

theorem src_none {d : List α} (h : Src z none d) : d = [] := by
  rcases h with ⟨_, r, hr⟩ | ⟨_, h⟩
  · cases hr
  · exact h

theorem static_ok {pre suf name dir : CPtr α} {p s n d : List α} {max : Nat} (hpre : Src z pre p) (hsuf : Src z suf s)
    (hname : Src z name n) (hdir : Src z dir d) (hl : d.length + 1 + (p.length + n.length + s.length + 1) < max) :
    ∃ a, staticPath z slash pre suf max name dir = .ok a ∧ SVec.Rep a (path slash dir d p n s ++ [z]) ∧ a.cap = max := by
  have h0 := SVec.rep_empty (α := α) max
  have c0 : (SVec.empty max : SVec α).cap = max := by simp [SVec.cap, SVec.empty]
  have first : ∃ a, staticDir z slash max dir = .ok a ∧
      SVec.Rep a (if dir.isSome then d ++ [slash] else []) ∧ a.cap = max := by
    cases hd : dir.isSome with
    | false => exact ⟨_, by rw [staticDir, hd]; rfl, h0, c0⟩
    | true =>
      obtain ⟨a1, b1, r1, e1⟩ := put_ok h0 hdir (by rw [c0]; simp; omega)
      obtain ⟨a2, b2, r2, e2⟩ := SVec.pushBack_ok r1 slash
      refine ⟨a2, ?_, ?_, by omega⟩
      · simp only [staticDir, hd, if_true, b1, Res.ok_bind]; exact b2
      · rw [if_pos (by rw [e1, c0]; simp; omega)] at r2; simpa using r2
  obtain ⟨a1, b1, r1, e1⟩ := first
  have hfl : (if dir.isSome then d ++ [slash] else []).length ≤ d.length + 1 := by split <;> simp
  obtain ⟨a2, b2, r2, e2⟩ := put_ok r1 hpre (by omega)
  obtain ⟨a3, b3, r3, e3⟩ := put_ok r2 hname (by rw [List.length_append]; omega)
  obtain ⟨a4, b4, r4, e4⟩ := put_ok r3 hsuf (by rw [List.length_append, List.length_append]; omega)
  obtain ⟨a5, b5, _, r5, e5⟩ := SVec.insert_ok (triv := true) r4 (p := a4.size) (by rw [r4.size_eq]; omega) z
  refine ⟨a5, ?_, ?_, by omega⟩
  · simp only [staticPath, Res.ok_bind, b1, b2, b3, b4]
    exact b5
  · rw [if_pos (by rw [List.length_append, List.length_append, List.length_append]; omega)] at r5
    rw [r4.size_eq, List.take_length, List.drop_length] at r5
    exact r5

theorem string_ok {pre suf name dir : CPtr α} {p s n d : List α} (hpre : Src z pre p) (hsuf : Src z suf s)
    (hname : Src z name n) (hdir : Src z dir d) {len : Nat} (hl : len = d.length + 1 + (p.length + n.length + s.length + 1)) (f : Nat) :
    ∃ t, stringPath z slash pre suf (f + 1) len name dir = .ok t ∧ Full z t (path slash dir d p n s) := by
  obtain ⟨t0, b0, r0, e0⟩ := Str.resize_ok (z := z) (s := Str.empty) (xs := []) (.inr ⟨rfl, rfl⟩) (n := len + 1) (by omega)
  have e0' : len + 1 ≤ t0.cap := by omega
  have b0' : Str.reserve z (Str.empty : Str α) (len + 1) = .ok t0 := by
    simp only [Str.reserve, Str.empty] at *; simpa using b0
  have first : ∃ t, stringDir z slash (f + 1) t0 dir = .ok t ∧
      Full z t (if dir.isSome then d ++ [slash] else []) ∧ t.cap = t0.cap := by
    cases hd : dir.isSome with
    | false => exact ⟨_, by rw [stringDir, hd]; rfl, r0, rfl⟩
    | true =>
      obtain ⟨t1, b1, r1, e1⟩ := pushBackRaw_room r0 hdir (by simp; omega) f
      obtain ⟨t2, b2, r2, e2⟩ := Str.pushBack_fits r1 slash (by simp; omega) f
      refine ⟨t2, ?_, by simpa using r2, by omega⟩
      simp only [stringDir, hd, if_true, b1, Res.ok_bind]; exact b2
  obtain ⟨t1, b1, r1, e1⟩ := first
  have hfl : (if dir.isSome then d ++ [slash] else []).length ≤ d.length + 1 := by split <;> simp
  obtain ⟨t2, b2, r2, e2⟩ := insertRaw_end r1 hpre (by omega) f
  obtain ⟨t3, b3, r3, e3⟩ := insertRaw_end r2 hname (by rw [List.length_append]; omega) f
  obtain ⟨t4, b4, r4, e4⟩ := insertRaw_end r3 hsuf (by rw [List.length_append, List.length_append]; omega) f
  refine ⟨t4, ?_, r4⟩
  simp only [stringPath, b0', Res.ok_bind, b1, b2, b3]
  exact b4

end LibPathLemmas
open LibPathLemmas

/-- C54: for every directory (or none), name, prefix and suffix, and every size of the static buffer, what the dynamic loader is
given is, read as a C string, exactly directory, separator, prefix, name, suffix; reading it stays inside the buffer and no
other memory is touched. -/
theorem C54_path {α : Type} [DecidableEq α] {z slash : α} (hz : slash ≠ z) {pre suf name dir : CPtr α} {p s n d : List α}
    (hpre : Str.Src z pre p) (hsuf : Str.Src z suf s) (hname : Str.Src z name n) (hdir : Str.Src z dir d) (max f : Nat) :
    ∃ mem, getHandle z slash pre suf max (f + 1) name dir = .ok mem ∧
      Str.cString.go z mem = .ok (path slash dir d p n s) := by
  have nz : ∀ {q : CPtr α} {xs : List α}, Str.Src z q xs → ∀ c ∈ xs, c ≠ z := by
    intro q xs h c hc
    rcases h with h | ⟨_, rfl⟩
    · exact h.1 c hc
    · cases hc
  have hnz : ∀ c ∈ path slash dir d p n s, c ≠ z := by
    intro c hc
    simp only [path, List.mem_append] at hc
    rcases hc with ((hc | hc) | hc) | hc
    · split at hc
      · rcases List.mem_append.mp hc with hc | hc
        · exact nz hdir c hc
        · rw [List.mem_singleton.mp hc]; exact hz
      · cases hc
    · exact nz hpre c hc
    · exact nz hname c hc
    · exact nz hsuf c hc
  have hlen : fullLength z pre suf name dir = .ok (d.length + 1 + (p.length + n.length + s.length + 1)) := by
    simp only [fullLength, hdir.rawLen, hname.rawLen, hpre.rawLen, hsuf.rawLen, Res.ok_bind]
  simp only [getHandle, hlen, Res.ok_bind]
  by_cases hm : d.length + 1 + (p.length + n.length + s.length + 1) < max
  · rw [if_pos hm]
    obtain ⟨a, h1, h2, h3⟩ := static_ok (slash := slash) hpre hsuf hname hdir hm
    refine ⟨memory (.inl a), by simp only [h1, Res.ok_bind], ?_⟩
    obtain ⟨R, hR⟩ := h2.2.2
    apply Str.go_ok _ _ hnz
    intro i hi
    have hb : a.buf = (path slash dir d p n s ++ [z]).map Cell.live ++ R := hR
    simp only [memory, hb, List.map_append, List.map_map]
    rw [List.getElem?_append_left (by simp; omega)]
    rw [← List.map_append, List.getElem?_map]
    have : i < (path slash dir d p n s ++ [z]).length := by simp; omega
    rw [List.getElem?_eq_getElem this]
    rfl
  · rw [if_neg hm]
    obtain ⟨t, h1, h2⟩ := string_ok (slash := slash) hpre hsuf hname hdir rfl f
    exact ⟨memory (.inr t), by simp only [h1, Res.ok_bind], Str.go_ok _ _ hnz h2.cells⟩

/-- A short and a long path, with and without directory. -/
example : (getHandle 0 47 (some [108, 105, 98, 0]) (some [46, 115, 111, 0]) 16 4 (some [97, 0]) (some [100, 0]) >>= fun m => Str.cString.go 0 m) =
      .ok [100, 47, 108, 105, 98, 97, 46, 115, 111] ∧
    (getHandle 0 47 (some [108, 105, 98, 0]) (some [46, 115, 111, 0]) 8 4 (some [97, 0]) (some [100, 0]) >>= fun m => Str.cString.go 0 m) =
      .ok [100, 47, 108, 105, 98, 97, 46, 115, 111] ∧
    (getHandle 0 47 (some [108, 105, 98, 0]) (some [46, 115, 111, 0]) 8 4 (some [97, 0]) none >>= fun m => Str.cString.go 0 m) =
      .ok [108, 105, 98, 97, 46, 115, 111] := by decide +kernel

example : Str.Src (0 : Nat) (some [108, 105, 98, 0]) [108, 105, 98] := .inl ⟨by decide, [], rfl⟩

end Flame
