import Verif.Win.Sema

/-!
# C113: a Windows semaphore counts: waits are matched by posts, and its value is its count
-/

namespace Flame.WinSema

theorem run_append (s : St) (l m : List Act) : run s (l ++ m) = (run s l).bind fun s' => run s' m := by
  induction l generalizing s with
  | nil => rfl
  | cons a l ih =>
    simp only [List.cons_append, run]
    cases step s a with
    | none => rfl
    | some s' => simpa using ih s'

/-- `s` is reached from a semaphore created with initial value `v` by steps allowed by `p`. -/
def From (v : Int) (p : Act → Prop) (s : St) : Prop := ∃ s₀ l, init v = .ok s₀ ∧ (∀ a ∈ l, p a) ∧ run s₀ l = some s

theorem From.induct {v : Int} {p : Act → Prop} {P : St → Prop} (h0 : ∀ s₀, init v = .ok s₀ → P s₀)
    (hs : ∀ s s' a, P s → p a → step s a = some s' → P s') {s : St} (h : From v p s) : P s := by
  obtain ⟨s₀, l, hi, ha, hr⟩ := h
  have key : ∀ (l : List Act) (s₁ : St), P s₁ → (∀ a ∈ l, p a) → run s₁ l = some s → P s := by
    intro l
    induction l with
    | nil => intro s₁ h1 _ hr; simp only [run] at hr; injection hr with hr; exact hr ▸ h1
    | cons a l ih =>
      intro s₁ h1 ha hr
      simp only [run] at hr
      cases hst : step s₁ a with
      | none => rw [hst] at hr; cases hr
      | some s₂ =>
        rw [hst] at hr
        exact ih s₂ (hs s₁ s₂ a h1 (ha a (by simp)) hst) (fun b hb => ha b (by simp [hb])) hr
  exact key l s₀ (h0 s₀ hi) ha hr

theorem init_eq {v : Int} {s₀ : St} (h : init v = .ok s₀) :
    0 < v ∧ s₀ = ⟨v.toNat, v.toNat, v, 0, 0, 0, [], 0, 0⟩ := by
  unfold init at h
  by_cases hv : 0 < v
  · rw [if_pos hv] at h; injection h with h; exact ⟨hv, h.symm⟩
  · rw [if_neg hv] at h; cases h

/-- C113: however waits, posts, failures and queries interleave, the count is the initial value plus the successful
posts minus the successful waits, and it never exceeds the initial value. -/
theorem C113_conservation {v : Int} {s : St} (h : From v (fun _ => True) s) :
    (s.count : Int) = v + s.posted - s.taken ∧ (s.count : Int) ≤ v ∧ (s.max : Int) = v := by
  refine From.induct (P := fun s => (s.count : Int) = v + s.posted - s.taken ∧ (s.count : Int) ≤ v ∧ (s.max : Int) = v) ?_ ?_ h
  · intro s₀ hi
    obtain ⟨hv, rfl⟩ := init_eq hi
    refine ⟨?_, ?_, ?_⟩ <;> simp only <;> omega
  · intro s s' a ⟨h1, h2, h3⟩ _ hs
    cases a <;> simp only [step] at hs
    all_goals first
      | (injection hs with hs; subst hs; exact ⟨h1, h2, h3⟩)
      | (split at hs <;> first
          | contradiction
          | (injection hs with hs; subst hs; refine ⟨?_, ?_, ?_⟩ <;> (try simp only) <;> omega))

/-- C113: so no more waits succeed than the initial value and the posts pay for. -/
theorem C113_no_overtake {v : Int} {s : St} (h : From v (fun _ => True) s) : (s.taken : Int) ≤ v + s.posted := by
  have := C113_conservation h; omega

/-- C113: a wait gets through exactly when the count is positive, `tryWait` reports busy exactly when it is zero. -/
theorem C113_wait_exact (s : St) :
    ((∃ s', step s .acquire = some s') ↔ 0 < s.count) ∧ ((∃ s', step s .busy = some s') ↔ s.count = 0) ∧
    (∀ s', step s .acquire = some s' → s'.count + 1 = s.count ∧ s'.taken = s.taken + 1) ∧
    ∀ s', step s .busy = some s' → s' = s := by
  refine ⟨?_, ?_, ?_, ?_⟩
  · simp only [step]
    by_cases h : 0 < s.count <;> simp [h]
  · simp only [step]
    by_cases h : s.count = 0 <;> simp [h]
  · intro s' hs
    simp only [step] at hs
    split at hs
    · injection hs with hs; subst hs; exact ⟨by simp only; omega, rfl⟩
    · cases hs
  · intro s' hs
    simp only [step] at hs
    split at hs
    · injection hs with hs; exact hs.symm
    · cases hs

/-- C113 (violated): a semaphore whose initial value is not positive cannot be created, so it cannot be used to
wait for something that has not happened yet. -/
theorem C113_init_violated (v : Int) : ((∃ s, init v = .ok s) ↔ 0 < v) ∧ (v ≤ 0 → init v = .error (-87)) := by
  unfold init
  by_cases h : 0 < v
  · simp only [h, if_true]; exact ⟨⟨fun _ => trivial, fun _ => ⟨_, rfl⟩⟩, fun hn => by omega⟩
  · simp [h, INVALID_PARAMETER]

/-- C113: the second half of a call always can and only can follow its first half: `decrement` an acquisition, `increment` a
release, and (the violated part) `decrement` also a failed wait. -/
theorem C113_finish_exact (s : St) :
    ((∃ s', step s .decrement = some s') ↔ 0 < s.acq) ∧ ((∃ s', step s .decrementFailed = some s') ↔ 0 < s.failed) ∧
    ((∃ s', step s .increment = some s') ↔ 0 < s.rel) ∧ ∀ r, (∃ s', step s (.cas r) = some s') ↔ r ∈ s.reads := by
  refine ⟨?_, ?_, ?_, fun r => ?_⟩
  · by_cases h : 0 < s.acq <;> simp [step, h]
  · by_cases h : 0 < s.failed <;> simp [step, h]
  · by_cases h : 0 < s.rel <;> simp [step, h]
  · by_cases h : r ∈ s.reads <;> simp [step, h]

/-- C113 (violated): `post` is refused whenever the successful waits do not outnumber the successful posts: the
count cannot be raised above the initial value. -/
theorem C113_post_violated {v : Int} {s : St} (h : From v (fun _ => True) s) :
    ((∃ s', step s .release = some s') ↔ s.posted < s.taken) ∧
    ((∃ s', step s .refused = some s') ↔ s.taken = s.posted) ∧
    (∀ s', step s .refused = some s' → s' = s) ∧
    ∀ s', step s .release = some s' → s'.count = s.count + 1 ∧ s'.posted = s.posted + 1 := by
  obtain ⟨h1, h2, h3⟩ := C113_conservation h
  refine ⟨?_, ?_, ?_, ?_⟩
  · simp only [step]
    by_cases hc : s.count < s.max
    · simp only [hc, if_true]; exact ⟨fun _ => by omega, fun _ => ⟨_, rfl⟩⟩
    · simp only [hc, if_false]; exact ⟨fun ⟨_, e⟩ => (nomatch e), fun _ => by omega⟩
  · simp only [step]
    by_cases hc : s.count < s.max
    · simp only [hc, if_true]; exact ⟨fun ⟨_, e⟩ => (nomatch e), fun _ => by omega⟩
    · simp only [hc, if_false]; exact ⟨fun _ => by omega, fun _ => ⟨_, rfl⟩⟩
  · intro s' hs
    simp only [step] at hs
    split at hs
    · cases hs
    · injection hs with hs; exact hs.symm
  · intro s' hs
    simp only [step] at hs
    split at hs
    · injection hs with hs; subst hs; exact ⟨rfl, rfl⟩
    · cases hs

/-- Nobody is inside a call. -/
def Quiescent (s : St) : Prop := s.acq = 0 ∧ s.failed = 0 ∧ s.rel = 0 ∧ s.reads = []

instance (s : St) : Decidable (Quiescent s) := inferInstanceAs (Decidable (_ ∧ _))

/-- Steps that belong neither to a failed wait nor to `value`. -/
def Plain : Act → Prop
  | .waitFail | .decrementFailed | .read | .cas _ => False
  | _ => True

/-- C113 (partial: as long as no wait fails and `value` does not run beside other calls): `context.value` is the
count, except for what the calls in progress still owe; when nobody is inside a call it is the count. -/
theorem C113_value_partial {v : Int} {s : St} (h : From v Plain s) :
    s.value = s.count + s.acq - s.rel ∧ (Quiescent s → s.value = s.count) := by
  have key : s.value = s.count + s.acq - s.rel := by
    refine From.induct (P := fun s => s.value = s.count + s.acq - s.rel) ?_ ?_ h
    · intro s₀ hi
      obtain ⟨hv, rfl⟩ := init_eq hi
      simp only; omega
    · intro s s' a h1 hp hs
      cases a <;> simp only [Plain] at hp <;> simp only [step] at hs
      all_goals first
        | contradiction
        | (split at hs <;> first
            | contradiction
            | (injection hs with hs; subst hs; (try simp only at h1 ⊢); omega))
  exact ⟨key, fun ⟨h1, _, h3, _⟩ => by omega⟩

/-- C113: a complete call of `value` that nothing runs beside returns the stored value and leaves it. -/
theorem C113_query_alone (s : St) : run s [.read, .cas s.value] = some s := by
  simp [run, step]

/-- C113 (violated): `value` overlapping with waits overwrites the stored value: for every initial value from 2 on,
a single query can leave a semaphore with count 1 claiming its initial value, with nobody inside a call. -/
theorem C113_value_violated (v : Nat) (hv : 2 ≤ v) :
    ∃ s, From v (fun a => a ≠ .waitFail ∧ a ≠ .decrementFailed) s ∧ Quiescent s ∧ s.count = 1 ∧ s.value = v := by
  -- `n` waits, one after the other
  have waits : ∀ (n : Nat) (s : St), s.count = n + 1 → s.acq = 0 →
      run s ((List.replicate n [Act.acquire, Act.decrement]).flatten) =
        some { s with count := 1, value := s.value - n, taken := s.taken + n } := by
    intro n
    induction n with
    | zero =>
      intro s hc ha
      simp [run]
      cases s; simp_all
    | succ n ih =>
      intro s hc ha
      simp only [List.replicate, List.flatten_cons, List.cons_append, List.nil_append, run, step, hc, ha]
      simp only [Nat.zero_lt_succ, if_true, Option.bind]
      rw [ih _ (by simp) (by simp)]
      simp only [Option.some.injEq, St.mk.injEq, true_and, and_true]
      omega
  refine ⟨⟨1, v, v, 0, 0, 0, [], v - 1, 0⟩, ⟨⟨v, v, v, 0, 0, 0, [], 0, 0⟩,
    .read :: ((List.replicate (v - 1) [Act.acquire, Act.decrement]).flatten ++ [.cas v]), ?_, ?_, ?_⟩, ⟨rfl, rfl, rfl, rfl⟩, rfl, rfl⟩
  · simp only [init]
    rw [if_pos (by omega)]
    simp
  · intro a ha
    simp at ha
    rcases ha with rfl | ⟨l, ⟨_, rfl⟩, h⟩ | rfl
    · simp
    · simp at h; rcases h with rfl | rfl <;> simp
    · simp
  · simp only [run, step, Option.bind]
    rw [run_append, waits (v - 1) _ (by simp only; omega) rfl]
    have e1 : ((v : Int) - ((v - 1 : Nat) : Int)) = 1 := by omega
    simp [run, step, e1]

/-- C113 (violated): every failed wait lowers the stored value, though the count stays. -/
theorem C113_failed_wait_violated (s : St) :
    ∃ s', run s [.waitFail, .decrementFailed] = some s' ∧ s'.value = s.value - 1 ∧ s'.count = s.count := by
  refine ⟨{ s with value := s.value - 1 }, ?_, rfl, rfl⟩
  simp [run, step]

/-- A semaphore of 2, one wait done, another has acquired, one post released. -/
def busyState : St := ⟨1, 2, 1, 1, 0, 1, [], 2, 1⟩

example : From 2 Plain busyState :=
  ⟨⟨2, 2, 2, 0, 0, 0, [], 0, 0⟩, [.acquire, .decrement, .acquire, .release], rfl, by simp [Plain], rfl⟩
example : From 2 (fun _ => True) busyState :=
  ⟨⟨2, 2, 2, 0, 0, 0, [], 0, 0⟩, [.acquire, .decrement, .acquire, .release], rfl, by simp [Plain], rfl⟩

namespace Flame.WinSema
private theorem busy_from : From 2 (fun _ => True) busyState :=
  ⟨⟨2, 2, 2, 0, 0, 0, [], 0, 0⟩, [.acquire, .decrement, .acquire, .release], rfl, by simp, rfl⟩
example := C113_conservation busy_from
example := C113_no_overtake busy_from
example := C113_post_violated busy_from
example := C113_value_partial (v := 2) (s := busyState)
  ⟨⟨2, 2, 2, 0, 0, 0, [], 0, 0⟩, [.acquire, .decrement, .acquire, .release], rfl, by simp [Plain], rfl⟩
example := C113_value_violated 5 (by decide)
end Flame.WinSema

end Flame.WinSema
