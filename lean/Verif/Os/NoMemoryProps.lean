import Verif.Os.NoMemory
import Verif.Utils.LibPathProps
import Verif.Crypto.LibraryProps
import Verif.Stream.RamProps
import Verif.Vector.Props

/-!
# C186: the library's own functions report that memory ran out
-/

namespace Flame.NoMemory

section Library
variable {α : Type} [DecidableEq α] {z slash : α} {pre suf name dir : CPtr α} {p s n d : List α}

/-- **C186 (partial), `Library`.**  With memory for the handle and, where the path is too long for the static buffer, for the path, the loader is asked for the right file.  A short path needs no
memory of its own. -/
theorem C186_open_partial (hz : slash ≠ z) (hpre : Str.Src z pre p) (hsuf : Str.Src z suf s) (hname : Str.Src z name n) (hdir : Str.Src z dir d) {max : Nat}
    {can : Nat → Bool} (f : Nat)
    (hm : max ≤ d.length + 1 + (p.length + n.length + s.length + 1) → can (d.length + 1 + (p.length + n.length + s.length + 1) + 1) = true) :
    ∃ mem, openLibrary z slash pre suf max true can (f + 1) name dir = .ok mem ∧ Str.cString.go z mem = .ok (LibPathLemmas.path slash dir d p n s) := by
  obtain ⟨mem, h1, h2⟩ := C54_path hz hpre hsuf hname hdir max f
  refine ⟨mem, ?_, h2⟩
  have hlen : LibPath.fullLength z pre suf name dir = .ok (d.length + 1 + (p.length + n.length + s.length + 1)) := by
    simp only [LibPath.fullLength, hdir.rawLen, hname.rawLen, hpre.rawLen, hsuf.rawLen, Res.ok_bind]
  simp only [openLibrary, library, if_true, Res.ok_bind, getHandle, LibPath.getHandle, hlen] at h1 ⊢
  by_cases hc : d.length + 1 + (p.length + n.length + s.length + 1) < max
  · rw [if_pos hc] at h1 ⊢; exact h1
  · rw [if_neg hc] at h1 ⊢
    rw [← h1]
    have hcan := hm (by omega)
    have hr : ∃ b, Raw.wr (List.replicate (0 + (d.length + 1 + (p.length + n.length + s.length + 1) + 1)) none) 0 z = .ok b :=
      ⟨_, Raw.wr_ok z (by simp)⟩
    obtain ⟨b, hb⟩ := hr
    have e1 : StrMem.reserve z can (⟨Str.empty, none, 0, []⟩ : StrMem.St α) (d.length + 1 + (p.length + n.length + s.length + 1) + 1) =
        .ok ⟨⟨b, 0 + (d.length + 1 + (p.length + n.length + s.length + 1) + 1), 0⟩, some 0, 1, [.made 0]⟩ := by
      unfold StrMem.reserve StrMem.resize
      have hcan' : can (0 + (d.length + 1 + (p.length + n.length + s.length + 1) + 1)) = true := by rw [Nat.zero_add]; exact hcan
      rw [if_neg (show ¬ (Str.empty : Str α).buf ≠ [] from fun c => c rfl)]
      show (if can (0 + (d.length + 1 + (p.length + n.length + s.length + 1) + 1)) = true then _ else _) = _
      rw [if_pos hcan']
      show (Raw.wr (List.replicate (0 + (d.length + 1 + (p.length + n.length + s.length + 1) + 1)) none) 0 z >>= _) = _
      rw [hb]; rfl
    have e2 : Str.reserve z (Str.empty : Str α) (d.length + 1 + (p.length + n.length + s.length + 1) + 1) =
        .ok ⟨b, 0 + (d.length + 1 + (p.length + n.length + s.length + 1) + 1), 0⟩ := by
      unfold Str.reserve Str.resize
      rw [if_neg (show ¬ (Str.empty : Str α).buf ≠ [] from fun c => c rfl)]
      show (Raw.wr (List.replicate (0 + (d.length + 1 + (p.length + n.length + s.length + 1) + 1)) none) 0 z >>= _) = _
      rw [hb]; rfl
    simp only [e1, LibPath.stringPath, e2, Res.ok_bind, stringRest]

/-- **C186 violated for `Library`, exactly.**  Without memory for the handle, or for a path too long for the static buffer, constructing a `Library` is undefined. -/
theorem C186_open_ub (hpre : Str.Src z pre p) (hsuf : Str.Src z suf s) (hname : Str.Src z name n) (hdir : Str.Src z dir d) {max : Nat}
    {cell : Bool} {can : Nat → Bool} (f : Nat)
    (h : cell = false ∨ (max ≤ d.length + 1 + (p.length + n.length + s.length + 1) ∧ can (d.length + 1 + (p.length + n.length + s.length + 1) + 1) = false)) :
    openLibrary z slash pre suf max cell can f name dir = .ub := by
  cases cell with
  | false => rfl
  | true =>
    rcases h with h | ⟨h1, h2⟩
    · cases h
    have hlen : LibPath.fullLength z pre suf name dir = .ok (d.length + 1 + (p.length + n.length + s.length + 1)) := by
      simp only [LibPath.fullLength, hdir.rawLen, hname.rawLen, hpre.rawLen, hsuf.rawLen, Res.ok_bind]
    simp only [openLibrary, library, if_true, Res.ok_bind, getHandle, hlen]
    rw [if_neg (by omega)]
    have e1 : StrMem.reserve z can (⟨Str.empty, none, 0, []⟩ : StrMem.St α) (d.length + 1 + (p.length + n.length + s.length + 1) + 1) = .ub := by
      unfold StrMem.reserve StrMem.resize
      have h2' : can (0 + (d.length + 1 + (p.length + n.length + s.length + 1) + 1)) = false := by rw [Nat.zero_add]; exact h2
      rw [if_neg (show ¬ (Str.empty : Str α).buf ≠ [] from fun c => c rfl)]
      show (if can (0 + (d.length + 1 + (p.length + n.length + s.length + 1) + 1)) = true then _ else _) = _
      rw [if_neg (by rw [h2']; decide)]
    rw [e1]; rfl

-- "d/lib" and "n" with a static buffer of 4 characters, without and with memory (0 ends a string, 9 is the separator)
example : openLibrary 0 9 (some [3, 0]) (some [4, 0]) 4 true (fun _ => false) 5 (some [2, 0]) (some [1, 0]) = (.ub : Res (Raw Nat)) ∧
    (openLibrary 0 9 (some [3, 0]) (some [4, 0]) 4 true (fun _ => true) 5 (some [2, 0]) (some [1, 0]) >>= Str.cString.go 0) =
      (.ok [1, 9, 3, 2, 4] : Res (List Nat)) ∧
    (openLibrary 0 9 (some [3, 0]) (some [4, 0]) 40 true (fun _ => false) 5 (some [2, 0]) (some [1, 0]) >>= Str.cString.go 0) =
      (.ok [1, 9, 3, 2, 4] : Res (List Nat)) := by
  refine ⟨rfl, rfl, rfl⟩

end Library

section Slots
variable {I F : Type}
open Pkcs11

/-- **C186 violated for `getSlotIdList`.**  Without memory for the identifiers the call never returns (it calls itself until the stack is full): no error is reported. -/
theorem C186_slots_violated {can : Nat → Bool} (hmono : ∀ i j, i ≤ j → can j = true → can i = true) {l : Lib I F} (h : l.status = OK) {m : Slots}
    (h1 : m.rv1 = OK) (hc : 0 < m.count) (hno : can m.count = false) (fuel : Nat) :
    getSlotIdList can fuel m l = .loop := by
  have key : ∀ (f : Nat) (v : Vec Nat), v.size < m.count → v.cap < m.count → v.resize can f m.count = .loop := by
    intro f
    induction f with
    | zero => intro v _ _; rfl
    | succ f ih =>
      intro v a b
      simp only [Vec.resize]
      rw [if_pos a, if_neg (by omega), if_pos b]
      refine ih _ (by rw [Vec.reserve_size]; exact a) ?_
      unfold Vec.reserve
      split
      · split
        · rename_i hcan
          show v.nextCap < m.count
          rcases Nat.lt_or_ge v.nextCap m.count with c | c
          · exact c
          · rw [hmono _ _ c hcan] at hno; cases hno
        · exact b
      · exact b
  have hr : (Vec.empty : Vec Nat).reserve can m.count = Vec.empty := by
    unfold Vec.reserve; split
    · rw [if_neg (by rw [hno]; decide)]
    · rfl
  have hn : getSlotIdCount m l = .result m.count := by
    simp [getSlotIdCount, getFunctionList, createExpected, h, h1, Exp.visit]
  unfold getSlotIdList
  rw [hn]
  simp only [readSlots, hr]
  rw [key fuel Vec.empty hc hc]

example : (∀ i j, i ≤ j → (fun k => decide (k < 10)) j = true → (fun k => decide (k < 10)) i = true) ∧ (fun k => decide (k < 10)) 12 = false := by
  refine ⟨fun i j h1 h2 => ?_, by decide⟩
  simp only [decide_eq_true_eq] at h2 ⊢; omega

/-- **C186 violated for the interface list.**  Without memory for it, reading the interface list answers OK and the list is empty. -/
theorem C186_interfaces_violated {can : Nat → Bool} {a : Answers I F} {l : Lib I F} {c : Nat} {rv2 : Rv} {xs : List I}
    (ha : a.interfaceList = some (OK, c, rv2, xs)) (hc : 0 < c) (hno : can c = false) :
    ∃ l' v, initializeInterfaceList can a l = .ok (OK, l') ∧ l'.ifaces = .result v ∧ v.toList = .ok [] ∧ v.cap = 0 ∧
      l'.status = l.status ∧ l'.functions = l.functions ∧ l'.info = l.info := by
  have hr : (Vec.empty : Vec I).reserve can c = Vec.empty := by
    unfold Vec.reserve; split
    · rw [if_neg (by rw [hno]; decide)]
    · rfl
  refine ⟨{ l with ifaces := .result (Vec.empty : Vec I).moveCtor.1 }, (Vec.empty : Vec I).moveCtor.1, ?_, rfl, rfl, rfl, rfl, rfl, rfl⟩
  unfold initializeInterfaceList
  rw [ha]
  simp only [hr]
  rw [if_pos (show True ∧ c ≠ 0 ∧ (Vec.empty : Vec I).cap = 0 from ⟨trivial, by omega, rfl⟩)]

/-- With memory it is what it was without the question. -/
theorem C186_interfaces_partial {can : Nat → Bool} {a : Answers I F} {l : Lib I F}
    (hm : ∀ rv1 c rv2 xs, a.interfaceList = some (rv1, c, rv2, xs) → 0 < c → rv1 = OK → can c = true) :
    initializeInterfaceList can a l = Pkcs11.initializeInterfaceList can a l := by
  unfold initializeInterfaceList
  split
  · rename_i rv1 c rv2 xs ha
    rw [if_neg]
    rintro ⟨e1, e2, e3⟩
    rw [Vec.reserve_cap _ (hm _ _ _ _ ha (by omega) e1)] at e3
    simp only [Vec.empty] at e3
    omega
  · rfl

end Slots

section Ram
open Ram RamLemmas
variable {α : Type}

theorem writeLoop_room {can : Nat → Bool} {w : Way} {e : Nat} {mem : List α} (ps : List Nat) :
    ∀ {f : Nat} {v : Vec α} {l : List α} {p : Nat}, v.Rep l → l.length + ps.length ≤ v.cap → Path w mem.length e p ps → ps.length < f →
    ∃ v', writeLoop can w e mem f v p = .ok v' ∧ v'.Rep (l ++ Ram.bytes mem ps) ∧ v'.cap = v.cap := by
  induction ps with
  | nil =>
    intro f v l p h _ hp hf
    obtain ⟨f, rfl⟩ : ∃ g, f = g + 1 := ⟨f - 1, by simp at hf; omega⟩
    simp only [Path] at hp
    exact ⟨v, by simp [writeLoop, hp], by simpa [Ram.bytes] using h, rfl⟩
  | cons q ps ih =>
    intro f v l p h hr hp hf
    obtain ⟨f, rfl⟩ : ∃ g, f = g + 1 := ⟨f - 1, by simp at hf; omega⟩
    obtain ⟨h1, rfl, h3, h4⟩ := hp
    simp only [List.length_cons] at hr hf
    obtain ⟨v1, a, b, c, _⟩ := Vec.pushBack_room (can := can) (f := f + 1) h (by rw [h.2.1]; omega) mem[q]
    obtain ⟨v2, r1, r2, r3⟩ := ih (f := f) (v := v1) (l := l ++ [mem[q]]) (p := w.next mem.length q) b
      (by rw [c, List.length_append]; simp; omega) h4 (by omega)
    refine ⟨v2, ?_, ?_, by omega⟩
    · rw [writeLoop, if_neg h1, List.getElem?_eq_getElem h3]
      simp only [a, Res.ok_bind]
      exact r1
    · simpa [Ram.bytes, List.filterMap_cons, List.getElem?_eq_getElem h3] using r2

theorem writeLoop_stuck {can : Nat → Bool} {w : Way} {e : Nat} {mem : List α} (ps : List Nat) :
    ∀ {f : Nat} {v : Vec α} {l : List α} {p : Nat}, v.Rep l → v.cap < l.length + ps.length → can v.nextCap = false → Path w mem.length e p ps →
    writeLoop can w e mem f v p = .loop := by
  induction ps with
  | nil =>
    intro f v l p h hr _ _
    have := h.size_le_cap; have := h.2.1
    simp at hr; omega
  | cons q ps ih =>
    intro f v l p h hr hno hp
    cases f with
    | zero => rfl
    | succ f =>
      obtain ⟨h1, rfl, h3, h4⟩ := hp
      rw [writeLoop, if_neg h1, List.getElem?_eq_getElem h3]
      by_cases hs : v.size = v.cap
      · simp only [C02_alloc_failure_diverges hs hno]; rfl
      · obtain ⟨v1, a, b, c, _⟩ := Vec.pushBack_room (can := can) (f := f + 1) h hs mem[q]
        simp only [a, Res.ok_bind]
        simp only [List.length_cons] at hr
        exact ih b (by rw [c, List.length_append]; simp; omega) (by unfold Vec.nextCap at hno ⊢; rw [c]; exact hno) h4

/-- **C186, `RamStream::write`, exactly.**  When the stream's vector cannot grow, a write of a range returns if and only if all of it fits into the block the vector has: then everything is
written and reported; otherwise the call never returns, though the bytes that fit could have been reported. -/
theorem C186_write_exact {can : Nat → Bool} {v : Vec α} {l : List α} (h : v.Rep l) (hno : can v.nextCap = false) {w : Way} {mem : List α} {b e : Nat}
    (ho : w.inside mem.length b e) :
    (l.length + (spots w mem.length b e).length ≤ v.cap →
      ∃ v' k, write can w (mem.length + 1) v mem b e = .ok (v', k) ∧ v'.Rep (l ++ Ram.bytes mem (spots w mem.length b e)) ∧
        k = ((Ram.bytes mem (spots w mem.length b e)).length : Int)) ∧
    (v.cap < l.length + (spots w mem.length b e).length → ∀ f, write can w f v mem b e = .loop) := by
  obtain ⟨hp, hl⟩ := path_spots ho
  constructor
  · intro hr
    obtain ⟨v', a, b', _⟩ := writeLoop_room (can := can) (f := mem.length + 1) _ h hr hp (by omega)
    refine ⟨v', (v'.size : Int) - v.size, by simp only [write, a, Res.ok_bind], b', ?_⟩
    rw [b'.2.1, h.2.1, List.length_append]; omega
  · intro hr f
    simp only [write, writeLoop_stuck (f := f) _ h hr hno hp]
    rfl

example : (⟨[.live 5, .raw], 2, 1⟩ : Vec Nat).Rep [5] ∧ (Way.linear).inside [7, 8].length 0 2 ∧
    (⟨[.live 5, .raw], 2, 1⟩ : Vec Nat).cap < [5].length + (spots .linear [7, 8].length 0 2).length :=
  ⟨⟨rfl, rfl, [.raw], rfl⟩, ⟨by decide, by decide⟩, by decide⟩

namespace Flame.NoMemory
open Pkcs11
example := C186_open_partial (z := 0) (slash := 9) (pre := some [3, 0]) (suf := some [4, 0]) (name := some [2, 0]) (dir := some [1, 0]) (p := [3]) (s := [4]) (n := [2]) (d := [1]) (by decide)
  (.inl ⟨by decide, [], rfl⟩) (.inl ⟨by decide, [], rfl⟩) (.inl ⟨by decide, [], rfl⟩) (.inl ⟨by decide, [], rfl⟩) (max := 4) (can := fun _ => true) 5
  (fun _ => rfl)
example := C186_interfaces_violated (I := Nat) (F := Nat) (can := fun _ => false) (a := ⟨some OK, some (OK, 2, OK, [5, 6]), OK, OK, 7⟩)
  (l := ⟨NOT_INITIALIZED, false, .nothing, none⟩) rfl (by decide) rfl
example := C186_interfaces_partial (I := Nat) (F := Nat) (can := fun n => n < 9) (a := ⟨some OK, some (OK, 2, OK, [5, 6]), OK, OK, 7⟩)
  (l := ⟨NOT_INITIALIZED, false, .nothing, none⟩) (by rintro _ _ _ _ ⟨⟩ _ _; decide)
end Flame.NoMemory

end Ram
end Flame.NoMemory
