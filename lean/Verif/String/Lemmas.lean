import Verif.String.Model

/-! Representation predicate of `BasicString` and the effect of each call. -/

namespace Flame.Str
variable {α : Type} [DecidableEq α] {z : α}

/-- The string owns an allocation of `cap` characters that holds `xs` followed by the terminator. -/
structure Full (z : α) (s : Str α) (xs : List α) : Prop where
  blen : s.buf.length = s.cap
  len : s.len = xs.length
  lt : xs.length < s.cap
  cells : ∀ i, i ≤ xs.length → s.buf[i]? = some ((xs ++ [z])[i]?)

/-- The string holds `xs`: with storage, or without any (a default-constructed or moved-from string). -/
def Rep (z : α) (s : Str α) (xs : List α) : Prop := Full z s xs ∨ (s = empty ∧ xs = [])

theorem Full.init {s : Str α} {xs : List α} (h : Full z s xs) {j : Nat} (hj : j ≤ xs.length) : ∃ a, s.buf[j]? = some (some a) := by
  rw [h.cells j hj]
  exact ⟨(xs ++ [z])[j]'(by simp; omega), by rw [List.getElem?_eq_getElem]⟩

theorem Full.nonempty {s : Str α} {xs : List α} (h : Full z s xs) : s.buf ≠ [] := by
  intro he; have := h.blen; have := h.lt; simp [he] at *; omega

theorem Full.cap_ne {s : Str α} {xs : List α} (h : Full z s xs) : s.cap ≠ 0 := by have := h.lt; omega

theorem Full.chars {s : Str α} {xs : List α} (h : Full z s xs) : chars s = .ok xs := by
  unfold Str.chars
  rw [h.len]
  apply Raw.rdRange_ok
  intro k hk
  rw [Nat.zero_add, h.cells k (by omega), List.getElem?_append_left hk]

theorem Rep.chars {s : Str α} {xs : List α} (h : Rep z s xs) : Str.chars s = .ok xs := by
  rcases h with h | ⟨rfl, rfl⟩
  · exact h.chars
  · rfl

theorem go_ok : ∀ (xs : List α) (r : Raw α), (∀ c ∈ xs, c ≠ z) → (∀ i, i ≤ xs.length → r[i]? = some ((xs ++ [z])[i]?)) →
    cString.go z r = .ok xs := by
  intro xs
  induction xs with
  | nil =>
    intro r _ h
    have := h 0 (by simp)
    cases r with
    | nil => simp at this
    | cons c r => simp at this; subst this; simp [cString.go]
  | cons x xs ih =>
    intro r hx h
    have h0 := h 0 (by simp)
    cases r with
    | nil => simp at h0
    | cons c r =>
      simp at h0; subst h0
      have := ih r (fun c hc => hx c (by simp [hc])) (fun i hi => by
        have := h (i + 1) (by simpa using hi)
        simpa using this)
      simp [cString.go, hx x (by simp), this]

theorem Full.cString {s : Str α} {xs : List α} (h : Full z s xs) (hx : ∀ c ∈ xs, c ≠ z) : Str.cString z s = .ok xs :=
  go_ok xs s.buf hx h.cells

/-- Two results of writing into an allocation are compared cell by cell. -/
theorem Full.mk' {b : Raw α} {xs : List α} (hl : xs.length < b.length)
    (hc : ∀ i, i ≤ xs.length → b[i]? = some ((xs ++ [z])[i]?)) : Full z ⟨b, b.length, xs.length⟩ xs :=
  ⟨rfl, rfl, hl, hc⟩

theorem getElem?_snoc (xs : List α) (c : α) (i : Nat) : (xs ++ [c])[i]? = if i < xs.length then xs[i]? else if i = xs.length then some c else none := by
  rw [List.getElem?_append]
  split
  · rfl
  · split
    · subst_vars; simp
    · rw [List.getElem?_eq_none]; simp; omega

/-- Fresh allocation filled with `xs` and a terminator. -/
theorem fresh_ok {n : Nat} {xs : List α} (hn : n = xs.length) :
    ∃ b, (Raw.wrList (List.replicate (n + 1) none) 0 xs >>= fun b => Raw.wr b n z) = .ok b ∧ Full z ⟨b, n + 1, n⟩ xs := by
  subst hn
  obtain ⟨b, h1, h2, h3⟩ := Raw.wrList_ok (b := List.replicate (xs.length + 1) (none : Option α)) (i := 0) (xs := xs) (by simp)
  simp only [List.length_replicate] at h2
  refine ⟨b.set xs.length (some z), by simp [h1, Raw.wr_ok z (show xs.length < b.length by omega)], ?_, rfl, by simp, ?_⟩
  · simpa using h2
  · intro i hi
    simp only [List.getElem?_set]
    rw [getElem?_snoc]
    by_cases h : xs.length = i
    · subst h; simp [h2]
    · have hi' : i < xs.length := by omega
      simp [h, h3, hi']

theorem copy_ok {s : Str α} {xs : List α} (h : Rep z s xs) : ∃ s', copy z s = .ok s' ∧ Full z s' xs ∧ s'.cap = xs.length + 1 := by
  have hc := h.chars
  have hl : s.len = xs.length := by rcases h with h | ⟨rfl, rfl⟩; exact h.len; rfl
  obtain ⟨b, h1, h2⟩ := fresh_ok (z := z) hl
  refine ⟨⟨b, s.len + 1, s.len⟩, ?_, h2, by simp [hl]⟩
  unfold Str.chars at hc
  simp only [copy, hc, Res.ok_bind]
  rw [Res.bind_eq_ok] at h1
  obtain ⟨b1, h3, h4⟩ := h1
  simp [h3, h4]

/-- A readable C string: characters before the terminator, terminator, whatever follows. -/
def IsC (z : α) (p : CPtr α) (xs : List α) : Prop := (∀ c ∈ xs, c ≠ z) ∧ ∃ r, p = some (xs ++ z :: r)

theorem scan_ok : ∀ {xs r : List α}, (∀ c ∈ xs, c ≠ z) → scan z (xs ++ z :: r) = .ok xs.length := by
  intro xs
  induction xs with
  | nil => intro r _; simp [scan]
  | cons x xs ih =>
    intro r h
    simp [scan, h x (by simp), ih (r := r) (fun c hc => h c (by simp [hc]))]

theorem rawLen_ok {p : CPtr α} {xs : List α} (h : IsC z p xs) : rawLen z p = .ok xs.length := by
  obtain ⟨h1, r, rfl⟩ := h
  exact scan_ok h1

theorem rawTake_ok {p : CPtr α} {xs : List α} (h : IsC z p xs) : rawTake p xs.length = .ok xs := by
  obtain ⟨h1, r, rfl⟩ := h
  unfold rawTake
  split
  · rename_i he; rw [List.eq_nil_of_length_eq_zero he]
  · simp

theorem rawTake_succ_ok {p : CPtr α} {xs : List α} (h : IsC z p xs) : rawTake p (xs.length + 1) = .ok (xs ++ [z]) := by
  obtain ⟨h1, r, rfl⟩ := h
  simp [rawTake, List.take_append, List.take_of_length_le]

/-- What `BasicString` accepts as text to copy: a C string, or a null pointer meaning no characters. -/
def Src (z : α) (p : CPtr α) (xs : List α) : Prop := IsC z p xs ∨ (p = none ∧ xs = [])

theorem Src.rawLen {p : CPtr α} {xs : List α} (h : Src z p xs) : Str.rawLen z p = .ok xs.length := by
  rcases h with h | ⟨rfl, rfl⟩
  · exact rawLen_ok h
  · rfl

theorem Src.rawTake {p : CPtr α} {xs : List α} (h : Src z p xs) : Str.rawTake p xs.length = .ok xs := by
  rcases h with h | ⟨rfl, rfl⟩
  · exact rawTake_ok h
  · rfl

theorem ofRaw_ok {p : CPtr α} {xs : List α} (h : Src z p xs) : ∃ s', ofRaw z p = .ok s' ∧ Full z s' xs ∧ s'.cap = xs.length + 1 := by
  obtain ⟨b, h1, h2⟩ := fresh_ok (z := z) (xs := xs) rfl
  refine ⟨⟨b, xs.length + 1, xs.length⟩, ?_, h2, rfl⟩
  rw [Res.bind_eq_ok] at h1
  obtain ⟨b1, h3, h4⟩ := h1
  simp [ofRaw, h.rawLen, h.rawTake, h3, h4]

theorem clean_full {s : Str α} {xs : List α} (h : Full z s xs) :
    ∃ s', clean z s = .ok s' ∧ Full z s' [] ∧ s'.cap = s.cap := by
  have hb := h.blen; have hl := h.lt
  refine ⟨⟨s.buf.set 0 (some z), s.cap, 0⟩, ?_, ⟨by simp [hb], rfl, by simp; omega, ?_⟩, rfl⟩
  · simp [clean, h.cap_ne, Raw.wr_ok z (show 0 < s.buf.length by omega)]
  · intro i hi
    have : i = 0 := by simpa using hi
    subst this
    simp [List.getElem?_set, show 0 < s.buf.length by omega]

theorem clean_ok {s : Str α} {xs : List α} (h : Rep z s xs) : ∃ s', clean z s = .ok s' ∧ Rep z s' [] ∧ s'.cap = s.cap := by
  rcases h with h | ⟨rfl, rfl⟩
  · obtain ⟨s', a, b, c⟩ := clean_full h
    exact ⟨s', a, Or.inl b, c⟩
  · exact ⟨empty, rfl, Or.inr ⟨rfl, rfl⟩, rfl⟩

/-- Growing keeps the contents. -/
theorem resize_full {s : Str α} {xs : List α} (h : Full z s xs) (n : Nat) :
    ∃ s', resize z s n = .ok s' ∧ Full z s' xs ∧ s'.cap = max s.cap n := by
  by_cases hn : s.cap < n
  · have hb := h.blen
    refine ⟨⟨s.buf.grow n, n, s.len⟩, by simp [resize, h.nonempty, hn], ⟨Raw.grow_length (by omega), h.len, ?_, ?_⟩, by simp; omega⟩
    · have := h.lt; simp; omega
    · intro i hi
      have := h.lt
      show (s.buf.grow n)[i]? = _
      rw [Raw.grow_get (by omega) (by omega)]
      exact h.cells i hi
  · exact ⟨s, by simp [resize, h.nonempty, hn], h, by omega⟩

theorem resize_ok {s : Str α} {xs : List α} (h : Rep z s xs) {n : Nat} (hn : 0 < n) :
    ∃ s', resize z s n = .ok s' ∧ Full z s' xs ∧ s'.cap = max s.cap n := by
  rcases h with h | ⟨rfl, rfl⟩
  · exact resize_full h n
  · refine ⟨⟨List.set (List.replicate n none) 0 (some z), n, 0⟩, ?_, ⟨by simp, rfl, by simp; omega, ?_⟩, by simp [empty]⟩
    · simp [resize, empty, Raw.wr_ok z (show 0 < (List.replicate n (none : Option α)).length by simpa using hn)]
    · intro i hi
      have : i = 0 := by simpa using hi
      subst this
      simp [List.getElem?_set, hn]

/-- Writing `ys` and a terminator from index `p` on. -/
theorem write_tail {s : Str α} {xs ys : List α} (h : Full z s xs) (hl : xs.length + ys.length < s.cap) :
    ∃ b, (s.buf.wrList xs.length ys >>= fun b => Raw.wr b (xs.length + ys.length) z) = .ok b ∧
      Full z ⟨b, s.cap, xs.length + ys.length⟩ (xs ++ ys) := by
  have hb := h.blen
  obtain ⟨b, h1, h2, h3⟩ := Raw.wrList_ok (b := s.buf) (i := xs.length) (xs := ys) (by omega)
  refine ⟨b.set (xs.length + ys.length) (some z), by simp [h1, Raw.wr_ok z (show xs.length + ys.length < b.length by omega)],
    ⟨by simp; omega, by simp, by simpa using hl, ?_⟩⟩
  intro i hi
  have hi' : i ≤ xs.length + ys.length := by simpa using hi
  show (b.set _ _)[i]? = _
  rw [List.getElem?_set, getElem?_snoc, List.length_append]
  by_cases h0 : xs.length + ys.length = i
  · subst h0; simp; omega
  · rw [if_neg h0, if_pos (show i < xs.length + ys.length by omega), h3]
    by_cases h4 : xs.length ≤ i
    · rw [if_pos (by omega), List.getElem?_append_right h4]
    · rw [if_neg (by omega), h.cells i (by omega), List.getElem?_append_left (by omega), List.getElem?_append_left (by omega)]

theorem pushBack_fits {s : Str α} {xs : List α} (h : Full z s xs) (c : α) (hl : xs.length + 1 < s.cap) (f : Nat) :
    ∃ s', pushBack z (f + 1) s c = .ok s' ∧ Full z s' (xs ++ [c]) ∧ s'.cap = s.cap := by
  obtain ⟨b, h1, h2⟩ := write_tail (ys := [c]) h (by simpa using hl)
  refine ⟨⟨b, s.cap, xs.length + 1⟩, ?_, h2, rfl⟩
  simp only [Raw.wrList, Res.bind_assoc, Res.ok_bind, List.length_singleton] at h1
  have hlt : s.len < s.cap := by rw [h.len]; omega
  simp only [pushBack, hlt, if_true]
  rw [h.len]
  rw [Res.bind_eq_ok] at h1
  obtain ⟨b1, h3, h4⟩ := h1
  simp [h3, h4]

/-- `pushBack(const &)` on a string whose allocation is exactly full writes the terminator outside it. -/
theorem pushBack_full_ub {s : Str α} {xs : List α} (h : Full z s xs) (c : α) (hl : xs.length + 1 = s.cap) (f : Nat) :
    pushBack z (f + 1) s c = .ub := by
  have hlt : s.len < s.cap := by rw [h.len]; omega
  have hb := h.blen
  simp only [pushBack, hlt, if_true]
  rw [h.len, Raw.wr_ok c (by omega)]
  simp only [Res.ok_bind]
  rw [Raw.wr_ub z (by simp; omega)]
  rfl

theorem pushBack_empty_ub (c : α) (f : Nat) : pushBack z (f + 1) (empty : Str α) c = .ub := by
  simp [pushBack, empty, resize, nextCap, Raw.wr]

theorem pushBackMove_ok {s : Str α} {xs : List α} (h : Full z s xs) (c : α) (hc : 2 ≤ s.cap) (f : Nat) :
    ∃ s', pushBackMove z (f + 1) s c = .ok s' ∧ Full z s' (xs ++ [c]) := by
  by_cases hl : xs.length + 1 < s.cap
  · obtain ⟨s', h1, h2, _⟩ := pushBack_fits h c hl 0
    refine ⟨s', ?_, h2⟩
    have hlt : s.len < s.cap := by rw [h.len]; omega
    have hlt' : s.len + 1 < s.cap := by rw [h.len]; omega
    simp only [pushBack, hlt, if_true] at h1
    simp only [pushBackMove, hlt', if_true]
    exact h1
  · have hlt' : ¬ s.len + 1 < s.cap := by rw [h.len]; omega
    obtain ⟨s1, a, b, d⟩ := resize_full h s.nextCap
    have hn : s.cap < s.nextCap := by unfold nextCap; omega
    have := h.lt
    obtain ⟨s', h1, h2, _⟩ := pushBack_fits b c (by omega) f
    exact ⟨s', by simp only [pushBackMove, hlt', if_false, a, Res.ok_bind, h1], h2⟩

theorem pushBackMove_small_ub {s : Str α} {xs : List α} (h : Rep z s xs) (c : α) (hc : s.cap < 2) (f : Nat) :
    pushBackMove z (f + 1) s c = .ub := by
  rcases h with h | ⟨rfl, rfl⟩
  · have hl := h.lt
    have hlt' : ¬ s.len + 1 < s.cap := by rw [h.len]; omega
    obtain ⟨s1, a, b, d⟩ := resize_full h s.nextCap
    have hn : s.nextCap ≤ s.cap := by unfold nextCap; omega
    simp only [pushBackMove, hlt', if_false, a, Res.ok_bind]
    exact pushBack_full_ub b c (by omega) f
  · simp [pushBackMove, empty, resize, nextCap, Raw.wr]

theorem pushBackRaw_ok {s : Str α} {xs ys : List α} {p : CPtr α} (h : Rep z s xs) (hp : Src z p ys) (f : Nat) :
    ∃ s', pushBackRaw z (f + 3) s p = .ok s' ∧ Full z s' (xs ++ ys) ∧ xs.length + ys.length + 2 < s'.cap := by
  have hlen : s.len = xs.length := by rcases h with h | ⟨rfl, rfl⟩; exact h.len; rfl
  -- enough room
  have room : ∀ (s : Str α) (g : Nat), Full z s xs → xs.length + ys.length + 2 < s.cap →
      ∃ s', pushBackRaw z (g + 1) s p = .ok s' ∧ Full z s' (xs ++ ys) ∧ xs.length + ys.length + 2 < s'.cap := by
    intro s g h hl
    obtain ⟨b, h1, h2⟩ := write_tail (ys := ys) h (by omega)
    refine ⟨⟨b, s.cap, xs.length + ys.length⟩, ?_, h2, hl⟩
    rw [Res.bind_eq_ok] at h1
    obtain ⟨b1, h3, h4⟩ := h1
    simp only [pushBackRaw, hp.rawLen, Res.ok_bind, h.len, hl, if_true, hp.rawTake, h3, h4]
  -- at least the needed size
  have almost : ∀ (s : Str α) (g : Nat), Full z s xs → xs.length + ys.length + 2 ≤ s.cap →
      ∃ s', pushBackRaw z (g + 2) s p = .ok s' ∧ Full z s' (xs ++ ys) ∧ xs.length + ys.length + 2 < s'.cap := by
    intro s g h hl
    by_cases hl2 : xs.length + ys.length + 2 < s.cap
    · exact room s (g + 1) h hl2
    · have hn : xs.length + ys.length + 2 < s.nextCap := by unfold nextCap; omega
      obtain ⟨s1, a, b, d⟩ := resize_full h s.nextCap
      obtain ⟨s', h1, h2⟩ := room s1 g b (by omega)
      refine ⟨s', ?_, h2⟩
      rw [pushBackRaw]
      simp only [hp.rawLen, Res.ok_bind, h.len, hl2, if_false, hn, if_true, a]
      exact h1
  by_cases hl : xs.length + ys.length + 2 < s.cap
  · rcases h with h | ⟨rfl, rfl⟩
    · exact room s (f + 2) h hl
    · simp [empty] at hl
  · let k := if xs.length + ys.length + 2 < s.nextCap then s.nextCap else xs.length + ys.length + 2
    obtain ⟨s1, a, b, d⟩ := resize_ok h (n := k) (by simp only [k]; split <;> omega)
    have hk : xs.length + ys.length + 2 ≤ k := by simp only [k]; split <;> omega
    obtain ⟨s', h1, h2⟩ := almost s1 f b (by omega)
    refine ⟨s', ?_, h2⟩
    rw [pushBackRaw]
    simp only [hp.rawLen, Res.ok_bind, hlen, hl, if_false]
    show (resize z s k >>= _) = _
    rw [a]; exact h1

theorem assignRaw_ok {s : Str α} {xs ys : List α} {p : CPtr α} (h : Rep z s xs) (hp : IsC z p ys) (f : Nat) :
    ∃ s', assignRaw z (f + 2) s p = .ok s' ∧ Full z s' ys ∧
      s'.cap = if ys.length + 1 ≤ s.cap then s.cap else s.cap + (ys.length + 1) := by
  have room : ∀ (s : Str α) (xs : List α) (g : Nat), Full z s xs → ys.length + 1 ≤ s.cap →
      ∃ s', assignRaw z (g + 1) s p = .ok s' ∧ Full z s' ys ∧ s'.cap = s.cap := by
    intro s xs g h hl
    obtain ⟨s1, a, b, d⟩ := clean_full h
    have hb := b.blen
    obtain ⟨b2, h1, h2, h3⟩ := Raw.wrList_ok (b := s1.buf) (i := 0) (xs := ys ++ [z]) (by simp; omega)
    refine ⟨⟨b2.set ys.length (some z), s1.cap, ys.length⟩, ?_, ⟨by simp; omega, rfl, by simp; omega, ?_⟩, d⟩
    · rw [assignRaw]
      simp only [a, Res.ok_bind, rawLen_ok hp, d, hl, if_true, rawTake_succ_ok hp, h1]
      rw [Raw.wr_ok z (by omega)]; rfl
    · intro i hi
      show (b2.set _ _)[i]? = _
      rw [List.getElem?_set]
      by_cases h0 : ys.length = i
      · subst h0; simp; omega
      · rw [if_neg h0, h3, if_pos (by simp; omega)]; simp
  by_cases hl : ys.length + 1 ≤ s.cap
  · rw [if_pos hl]
    rcases h with h | ⟨rfl, rfl⟩
    · exact room s xs (f + 1) h hl
    · simp [empty] at hl
  · obtain ⟨s1, a, b, d⟩ := clean_ok h
    have hl1 : s1.len = 0 := by rcases b with b | ⟨rfl, _⟩; exact b.len; rfl
    obtain ⟨s2, a2, b2, d2⟩ := resize_ok b (n := s1.cap + (ys.length + 1)) (by omega)
    obtain ⟨s', h1, h2, h3⟩ := room s2 [] f b2 (by omega)
    refine ⟨s', ?_, h2, by rw [if_neg hl, h3, d2, d]; omega⟩
    rw [assignRaw]
    simp only [a, Res.ok_bind, rawLen_ok hp, d, hl, if_false, reserve, hl1, Nat.sub_zero]
    rw [d] at a2
    rw [a2]; exact h1

theorem popBack_full {s : Str α} {xs : List α} (h : Full z s xs) : ∃ s', popBack z s = .ok s' ∧ Full z s' xs.dropLast ∧ s'.cap = s.cap := by
  have hb := h.blen; have hl := h.len; have hlt := h.lt
  by_cases h0 : s.len = 0
  · have : xs = [] := List.eq_nil_of_length_eq_zero (by omega)
    subst this
    exact ⟨s, by simp [popBack, h0], by simpa using h, rfl⟩
  · refine ⟨⟨s.buf.set (s.len - 1) (some z), s.cap, s.len - 1⟩, ?_, ⟨by simp [hb], by simp [hl], by simp; omega, ?_⟩, rfl⟩
    · simp [popBack, h0, Raw.wr_ok z (show s.len - 1 < s.buf.length by omega)]
    · intro i hi
      simp only [List.length_dropLast] at hi
      show (s.buf.set _ _)[i]? = _
      rw [List.getElem?_set, getElem?_snoc]
      by_cases h1 : s.len - 1 = i
      · subst h1; simp [hl, show xs.length - 1 < s.buf.length by omega]
      · rw [if_neg h1, if_pos (by simp; omega), h.cells i (by omega), List.getElem?_append_left (by omega), List.getElem?_dropLast,
          if_pos (by omega)]

theorem insert_fits {s : Str α} {xs : List α} (h : Full z s xs) {p : Nat} (hp : p ≤ xs.length) (c : α) (hl : xs.length + 1 < s.cap)
    (f : Nat) : ∃ s', insert z (f + 1) s p c = .ok s' ∧ Full z s' (xs.take p ++ c :: xs.drop p) := by
  have hb := h.blen; have hln := h.len
  have e1 : ¬ s.len < p := by omega
  have e2 : s.len + 1 < s.cap := by omega
  by_cases hpe : p = xs.length
  · obtain ⟨s', h1, h2, _⟩ := pushBack_fits h c hl f
    refine ⟨s', ?_, by subst hpe; simpa using h2⟩
    have e3 : p = s.len := by omega
    rw [insert, if_neg e1, if_pos e2, if_pos e3]
    exact h1
  · -- shift
    have hwr : Raw.wr s.buf s.len z = .ok (s.buf.set s.len (some z)) := Raw.wr_ok z (by omega)
    obtain ⟨b1, a1, a2, a3⟩ := Raw.copyUp_ok (b := s.buf.set s.len (some z)) (pos := p) (d := 1) (n := s.len - p) (by omega)
      (by simp; omega) (fun j hj1 hj2 => by
        obtain ⟨a, ha⟩ := h.init (j := j) (by omega)
        exact ⟨a, by simp [List.getElem?_set, show s.len ≠ j by omega, ha]⟩)
    simp only [List.length_set] at a2
    refine ⟨⟨(b1.set p (some c)).set (s.len + 1) (some z), s.cap, s.len + 1⟩, ?_, ⟨by simp; omega, ?_, ?_, ?_⟩⟩
    · have e3 : p ≠ s.len := by omega
      simp only [insert, e1, if_false, e2, if_true, e3, hwr, Res.ok_bind, a1]
      rw [Raw.wr_ok c (by omega)]
      simp only [Res.ok_bind]
      rw [Raw.wr_ok z (by rw [List.length_set]; omega)]; rfl
    · simp only [List.length_append, List.length_cons, List.length_take, List.length_drop]; omega
    · simp only [List.length_append, List.length_cons, List.length_take, List.length_drop]; omega
    · intro i hi
      simp only [List.length_append, List.length_cons, List.length_take, List.length_drop] at hi
      show ((b1.set p (some c)).set (s.len + 1) (some z))[i]? = _
      have hbl : b1.length = s.cap := by omega
      rw [getElem?_snoc]
      simp only [List.length_append, List.length_cons, List.length_take, List.length_drop]
      simp only [List.getElem?_set, List.length_set]
      have em : min p xs.length + (xs.length - p + 1) = s.len + 1 := by omega
      rw [em]
      by_cases h1 : s.len + 1 = i
      · subst h1; simp; omega
      · rw [if_neg h1, if_pos (show i < s.len + 1 by omega)]
        by_cases h2 : p = i
        · subst h2
          rw [if_pos rfl]
          rw [List.getElem?_append_right (by simp; omega)]; simp [show p < b1.length by omega, show min p xs.length = p by omega]
        · rw [if_neg h2, a3]
          by_cases h3 : p + 1 ≤ i ∧ i < p + 1 + (s.len - p)
          · rw [if_pos h3, List.getElem?_set, if_neg (by omega), h.cells (i - 1) (by omega), List.getElem?_append_left (by omega),
              List.getElem?_append_right (by simp; omega)]
            simp only [List.length_take, show min p xs.length = p by omega]
            obtain ⟨k, hk⟩ : ∃ k, i - p = k + 1 := ⟨i - p - 1, by omega⟩
            rw [hk, List.getElem?_cons_succ, List.getElem?_drop]
            rw [show p + k = i - 1 by omega]
          · rw [if_neg h3, List.getElem?_set, if_neg (by omega), h.cells i (by omega), List.getElem?_append_left (by omega),
              List.getElem?_append_left (by simp; omega), List.getElem?_take_of_lt (by omega)]

theorem insert_ok {s : Str α} {xs : List α} (h : Full z s xs) {p : Nat} (hp : p ≤ xs.length) (c : α) (f : Nat) :
    ∃ s', insert z (f + 2) s p c = .ok s' ∧ Full z s' (xs.take p ++ c :: xs.drop p) := by
  by_cases hl : xs.length + 1 < s.cap
  · exact insert_fits h hp c hl (f + 1)
  · have hlt := h.lt; have hln := h.len
    obtain ⟨s1, a, b, d⟩ := resize_full h (s.cap + s.nextCap)
    have hn : s.cap ≤ s.nextCap := by unfold nextCap; omega
    obtain ⟨s', h1, h2⟩ := insert_fits b hp c (by omega) f
    refine ⟨s', ?_, h2⟩
    rw [insert]
    rw [if_neg (by omega), if_neg (by omega)]
    simp only [reserve, a, Res.ok_bind, h1]

theorem pushBackList_ok {s : Str α} {xs ys : List α} (h : Full z s xs) (hl : xs.length + ys.length < s.cap) (f : Nat) :
    ∃ s', pushBackList z (f + 1) s ys = .ok s' ∧ Full z s' (xs ++ ys) ∧ s'.cap = s.cap := by
  induction ys generalizing s xs with
  | nil => exact ⟨s, rfl, by simpa using h, rfl⟩
  | cons y ys ih =>
    simp only [List.length_cons] at hl
    obtain ⟨s1, a, b, d⟩ := pushBack_fits h y (by omega) f
    obtain ⟨s2, a2, b2, d2⟩ := ih b (by simp; omega)
    exact ⟨s2, by simp [pushBackList, a, a2], by simpa using b2, by omega⟩

theorem insertRange_fits {s : Str α} {xs ys : List α} (h : Full z s xs) {p : Nat} (hp : p ≤ xs.length)
    (hl : ys.length + xs.length < s.cap) (f : Nat) :
    ∃ s', insertRange z (f + 1) s p ys = .ok s' ∧ Full z s' (xs.take p ++ (ys ++ xs.drop p)) := by
  have hb := h.blen; have hln := h.len
  have e1 : ¬ s.len < p := by omega
  by_cases hy : ys.length = 0
  · have : ys = [] := List.eq_nil_of_length_eq_zero hy
    subst this
    exact ⟨s, by simp [insertRange, e1], by simpa using h⟩
  have e2 : ys.length + s.len < s.cap := by omega
  by_cases hpe : p = xs.length
  · obtain ⟨s', h1, h2, _⟩ := pushBackList_ok (ys := ys) h (by omega) f
    refine ⟨s', ?_, by subst hpe; simpa using h2⟩
    have e3 : p = s.len := by omega
    rw [insertRange]
    simp only [e1, hy, if_false, e2, if_true]
    rw [if_pos e3]
    exact h1
  · obtain ⟨b0, q1, q2, q3⟩ := Raw.wrList_ok (b := s.buf) (i := s.len) (xs := List.replicate ys.length z) (by simp; omega)
    have q3' : ∀ j, j < s.len → b0[j]? = s.buf[j]? := fun j hj => by rw [q3, if_neg (by omega)]
    obtain ⟨b1, a1, a2, a3⟩ := Raw.copyUp_ok (b := b0) (pos := p) (d := ys.length) (n := s.len - p) (by omega)
      (by omega) (fun j hj1 hj2 => by
        obtain ⟨a, ha⟩ := h.init (j := j) (by omega)
        exact ⟨a, by rw [q3' j (by omega)]; exact ha⟩)
    obtain ⟨b2, c1, c2, c3⟩ := Raw.wrList_ok (b := b1) (i := p) (xs := ys) (by omega)
    refine ⟨⟨b2.set (s.len + ys.length) (some z), s.cap, s.len + ys.length⟩, ?_, ⟨by simp; omega, ?_, ?_, ?_⟩⟩
    · have e3 : p ≠ s.len := by omega
      rw [insertRange]
      simp only [e1, hy, if_false, e2, if_true, e3, q1, Res.ok_bind, a1, c1]
      rw [Raw.wr_ok z (by omega)]; rfl
    · simp only [List.length_append, List.length_take, List.length_drop]; omega
    · simp only [List.length_append, List.length_take, List.length_drop]; omega
    · intro i hi
      simp only [List.length_append, List.length_take, List.length_drop] at hi
      show (b2.set (s.len + ys.length) (some z))[i]? = _
      rw [getElem?_snoc]
      simp only [List.length_append, List.length_take, List.length_drop]
      rw [List.getElem?_set]
      have em : min p xs.length + (ys.length + (xs.length - p)) = s.len + ys.length := by omega
      rw [em]
      by_cases h1 : s.len + ys.length = i
      · subst h1; simp; omega
      · rw [if_neg h1, if_pos (show i < s.len + ys.length by omega), c3]
        by_cases h2 : p ≤ i ∧ i < p + ys.length
        · rw [if_pos h2, List.getElem?_append_right (by simp; omega), List.getElem?_append_left (by simp; omega)]
          simp [show min p xs.length = p by omega]
        · rw [if_neg h2, a3]
          by_cases h3 : p + ys.length ≤ i ∧ i < p + ys.length + (s.len - p)
          · rw [if_pos h3, q3' _ (by omega), h.cells (i - ys.length) (by omega), List.getElem?_append_left (by omega),
              List.getElem?_append_right (by simp; omega), List.getElem?_append_right (by simp; omega), List.getElem?_drop]
            simp only [List.length_take]
            congr 2; omega
          · rw [if_neg h3, q3' _ (by omega), h.cells i (by omega), List.getElem?_append_left (by omega),
              List.getElem?_append_left (by simp; omega), List.getElem?_take_of_lt (by omega)]

/-- When the range does not fit, `insert` recurses for ever. -/
theorem insertRange_stuck {s : Str α} {xs ys : List α} (h : Rep z s xs) {p : Nat} (hp : p ≤ xs.length) (hy : ys ≠ [])
    (hl : s.cap ≤ ys.length + xs.length) (f : Nat) : insertRange z f s p ys = .loop := by
  have hy' : 0 < ys.length := List.length_pos_iff.mpr hy
  have key : ∀ (f : Nat) (s : Str α), Rep z s xs → s.cap ≤ ys.length + xs.length → insertRange z f s p ys = .loop := by
    intro f
    induction f with
    | zero => intros; rfl
    | succ f ih =>
      intro s h hl
      have hln : s.len = xs.length := by rcases h with h | ⟨rfl, rfl⟩; exact h.len; rfl
      obtain ⟨s1, a, b, d⟩ := resize_ok h (n := ys.length) hy'
      rw [insertRange, if_neg (by omega), if_neg (by omega), if_neg (by omega), a]
      exact ih s1 (Or.inl b) (by omega)
  exact key f s h hl

theorem erase_ok {s : Str α} {xs : List α} (h : Full z s xs) {p : Nat} (hp : p ≤ xs.length) :
    ∃ s', erase z s p = .ok s' ∧ Full z s' (xs.take p ++ xs.drop (p + 1)) ∧ s'.cap = s.cap := by
  have hb := h.blen; have hln := h.len; have hlt := h.lt
  have e1 : ¬ s.len < p := by omega
  by_cases h0 : p = s.len
  · refine ⟨s, by simp [erase, h0], ?_, rfl⟩
    rw [List.drop_eq_nil_of_le (by omega), List.take_of_length_le (by omega)]; simpa using h
  by_cases h1 : p + 1 = s.len
  · obtain ⟨s', a, b, d⟩ := popBack_full h
    refine ⟨s', by simp only [erase, e1, h0, h1, if_false, if_true]; exact a, ?_, d⟩
    rw [List.drop_eq_nil_of_le (by omega), List.append_nil]
    rw [List.dropLast_eq_take] at b
    rw [show p = xs.length - 1 by omega]; exact b
  · obtain ⟨b1, a1, a2, a3⟩ := Raw.copyDown_ok (b := s.buf) (src := p + 1) (dst := p) (n := s.len - (p + 1)) (by omega)
      (fun j hj1 hj2 => h.init (by omega))
    refine ⟨⟨b1.set (s.len - 1) (some z), s.cap, s.len - 1⟩, ?_, ⟨by simp; omega, ?_, ?_, ?_⟩, rfl⟩
    · simp only [erase, e1, h0, h1, if_false, a1, Res.ok_bind]
      rw [Raw.wr_ok z (by omega)]; rfl
    · simp only [List.length_append, List.length_take, List.length_drop]; omega
    · simp only [List.length_append, List.length_take, List.length_drop]; omega
    · intro i hi
      simp only [List.length_append, List.length_take, List.length_drop] at hi
      show (b1.set (s.len - 1) (some z))[i]? = _
      rw [getElem?_snoc]
      simp only [List.length_append, List.length_take, List.length_drop]
      rw [List.getElem?_set]
      have em : min p xs.length + (xs.length - (p + 1)) = s.len - 1 := by omega
      rw [em]
      by_cases h2 : s.len - 1 = i
      · subst h2; simp; omega
      · rw [if_neg h2, if_pos (show i < s.len - 1 by omega), a3]
        by_cases h3 : p ≤ i ∧ i < p + (s.len - (p + 1))
        · rw [if_pos h3, h.cells _ (by omega), List.getElem?_append_left (by omega), List.getElem?_append_right (by simp; omega),
            List.getElem?_drop]
          simp only [List.length_take]
          congr 2; omega
        · rw [if_neg h3, h.cells i (by omega), List.getElem?_append_left (by omega), List.getElem?_append_left (by simp; omega),
            List.getElem?_take_of_lt (by omega)]

theorem eraseRange_ok {s : Str α} {xs : List α} (h : Full z s xs) {b e : Nat} (hbe : b ≤ e) (he : e ≤ xs.length) :
    ∃ s', eraseRange z s b e = .ok s' ∧ Full z s' (xs.take b ++ xs.drop e) ∧ s'.cap = s.cap := by
  have hb := h.blen; have hln := h.len; have hlt := h.lt
  have e1 : ¬ (s.len < b ∨ s.len < e) := by omega
  have e2 : ¬ e < b := by omega
  by_cases h0 : e - b = s.len
  · obtain ⟨s', a, c, d⟩ := clean_full h
    refine ⟨s', by simp only [eraseRange, e1, e2, h0, if_false, if_true]; exact a, ?_, d⟩
    rw [show b = 0 by omega, List.drop_eq_nil_of_le (by omega)]; simpa using c
  by_cases h1 : 0 < e - b
  · obtain ⟨b1, a1, a2, a3⟩ := Raw.copyDown_ok (b := s.buf) (src := e) (dst := b) (n := s.len - e) (by omega)
      (fun j hj1 hj2 => h.init (by omega))
    refine ⟨⟨b1.set (s.len - (e - b)) (some z), s.cap, s.len - (e - b)⟩, ?_, ⟨by simp; omega, ?_, ?_, ?_⟩, rfl⟩
    · simp only [eraseRange, e1, e2, h0, h1, if_false, if_true, a1, Res.ok_bind]
      rw [Raw.wr_ok z (by omega)]; rfl
    · simp only [List.length_append, List.length_take, List.length_drop]; omega
    · simp only [List.length_append, List.length_take, List.length_drop]; omega
    · intro i hi
      simp only [List.length_append, List.length_take, List.length_drop] at hi
      show (b1.set (s.len - (e - b)) (some z))[i]? = _
      rw [getElem?_snoc]
      simp only [List.length_append, List.length_take, List.length_drop]
      rw [List.getElem?_set]
      have em : min b xs.length + (xs.length - e) = s.len - (e - b) := by omega
      rw [em]
      by_cases h2 : s.len - (e - b) = i
      · subst h2; simp; omega
      · rw [if_neg h2, if_pos (show i < s.len - (e - b) by omega), a3]
        by_cases h3 : b ≤ i ∧ i < b + (s.len - e)
        · rw [if_pos h3, h.cells _ (by omega), List.getElem?_append_left (by omega), List.getElem?_append_right (by simp; omega),
            List.getElem?_drop]
          simp only [List.length_take]
          congr 2; omega
        · rw [if_neg h3, h.cells i (by omega), List.getElem?_append_left (by omega), List.getElem?_append_left (by simp; omega),
            List.getElem?_take_of_lt (by omega)]
  · refine ⟨s, by simp only [eraseRange, e1, e2, h0, h1, if_false], ?_, rfl⟩
    rw [show e = b by omega, List.take_append_drop]; exact h

/-- What `operator=(const Me &)` leaves behind when it is defined: the source's characters as a C string, but length 0. -/
theorem assign_room {s t : Str α} {xs ys : List α} (h : Full z s xs) (ht : Rep z t ys) (hl : ys.length < s.cap) (f : Nat) :
    ∃ s', assign z (f + 1) s t = .ok s' ∧ s'.len = 0 ∧ s'.cap = s.cap ∧ Full z ⟨s'.buf, s'.cap, ys.length⟩ ys := by
  have htl : t.len = ys.length := by rcases ht with h | ⟨rfl, rfl⟩; exact h.len; rfl
  obtain ⟨s1, a, b, d⟩ := clean_full h
  have hb := b.blen
  have hc := ht.chars
  unfold Str.chars at hc
  obtain ⟨b2, h1, h2⟩ := write_tail (xs := []) (ys := ys) b (by simp; omega)
  simp only [List.length_nil, Nat.zero_add, List.nil_append] at h1 h2
  refine ⟨⟨b2, s1.cap, s1.len⟩, ?_, b.len, d, h2⟩
  rw [Res.bind_eq_ok] at h1
  obtain ⟨b3, h3, h4⟩ := h1
  rw [assign, if_pos (by omega)]
  simp only [a, Res.ok_bind, hc, h3, h4]

end Flame.Str
