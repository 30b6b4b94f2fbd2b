import Verif.Props.StepPrompts

namespace Yuca

open Spec

variable {σ β : Type}

/-! ## C132: the loops -/

/-- The automaton computes each step from its step size and the grid by one rule `F`, does not
change the step size and adds it to the clock; `C` holds of its states. -/
structure Spec.Ticks (A : Auto ℝ σ β) (C : σ → Prop) (F : ℝ → β → Except PyErr β) : Prop where
  call_ok : ∀ s, C s → ∀ b b', F (A.dt s) b = .ok b' →
    ∃ s', A.call s b = .ok (b', s') ∧ C s' ∧ A.dt s' = A.dt s ∧ A.t s' = A.t s + A.dt s
  call_err : ∀ s, C s → ∀ b e, F (A.dt s) b = .error e → A.call s b = .error e
  set : ∀ s, C s → ∀ d, C (A.setDt s d) ∧ A.dt (A.setDt s d) = d ∧ A.t (A.setDt s d) = A.t s

/-- `n` steps of a rule lead from `b` to `b'`. -/
def Spec.Runs (f : β → Except PyErr β) : Nat → β → β → Prop
  | 0, b, b' => b' = b
  | n + 1, b, b' => ∃ c, f b = .ok c ∧ Spec.Runs f n c b'

theorem runs_add {f : β → Except PyErr β} (m n : Nat) : ∀ {b b' : β}, Spec.Runs f (m + n) b b' →
    ∃ c, Spec.Runs f m b c ∧ Spec.Runs f n c b' := by
  induction m with
  | zero => intro b b' h; exact ⟨b, rfl, by simpa using h⟩
  | succ m ih =>
    intro b b' h
    rw [Nat.succ_add] at h
    obtain ⟨c, hc, h⟩ := h
    obtain ⟨e, h1, h2⟩ := ih h
    exact ⟨e, ⟨c, hc, h1⟩, h2⟩

theorem runs_unique {f : β → Except PyErr β} (n : Nat) : ∀ {b c c' : β}, Spec.Runs f n b c →
    Spec.Runs f n b c' → c = c' := by
  induction n with
  | zero => intro b c c' h h'; exact h.trans h'.symm
  | succ n ih =>
    rintro b c c' ⟨x, hx, h⟩ ⟨y, hy, h'⟩
    rw [hx] at hy; cases hy
    exact ih h h'

theorem trio_round {A : Auto ℝ σ β} {C : σ → Prop} {F : ℝ → β → Except PyErr β}
    (hA : Spec.Ticks A C F) (s : Trio σ β) (hC : C s.ca) {g sl fa : β}
    (h1 : F (A.dt s.ca) s.grid = .ok g) (h2 : F (A.dt s.ca / 3) s.slow = .ok sl)
    (h3 : F (min (A.dt s.ca * 3) 1) s.fast = .ok fa) :
    ∃ ca', trioRound A (A.dt s.ca) s = .ok ⟨ca', g, sl, fa⟩ ∧ C ca' ∧ A.dt ca' = A.dt s.ca ∧
      A.t ca' = A.t s.ca + (A.dt s.ca + A.dt s.ca / 3 + min (3 * A.dt s.ca) 1) := by
  obtain ⟨d, hd⟩ : ∃ d, d = A.dt s.ca := ⟨_, rfl⟩
  obtain ⟨c1, e1, k1, _, t1⟩ := hA.call_ok _ hC _ _ h1
  rw [← hd] at h2 h3 t1 ⊢
  obtain ⟨k2, d2, t2⟩ := hA.set _ k1 (d / 3)
  obtain ⟨c3, e3, k3, _, t3⟩ := hA.call_ok _ k2 s.slow sl (by rw [d2]; exact h2)
  obtain ⟨k4, d4, t4⟩ := hA.set _ k3 (min (d * 3) 1)
  obtain ⟨c5, e5, k5, _, t5⟩ := hA.call_ok _ k4 s.fast fa (by rw [d4]; exact h3)
  obtain ⟨k6, d6, t6⟩ := hA.set _ k5 d
  refine ⟨A.setDt c5 d, ?_, k6, d6, ?_⟩
  · simp only [trioRound, e1, e3, e5, bind, Except.bind, pure, Except.pure]
  · rw [t6, t5, t4, t3, t2, t1, d4, d2, mul_comm d 3]; ring

theorem trio_rounds {A : Auto ℝ σ β} {C : σ → Prop} {F : ℝ → β → Except PyErr β}
    (hA : Spec.Ticks A C F) (d : ℝ) (n : Nat) : ∀ (s : Trio σ β), C s.ca → A.dt s.ca = d →
    ∀ {g sl fa : β}, Spec.Runs (F d) n s.grid g → Spec.Runs (F (d / 3)) n s.slow sl →
    Spec.Runs (F (min (d * 3) 1)) n s.fast fa →
    ∃ ca', trioRounds A d n s = .ok ⟨ca', g, sl, fa⟩ ∧ C ca' ∧ A.dt ca' = d ∧
      A.t ca' = A.t s.ca + n * (d + d / 3 + min (3 * d) 1) := by
  induction n with
  | zero =>
    intro s hC hd g sl fa h1 h2 h3
    cases h1; cases h2; cases h3
    exact ⟨s.ca, rfl, hC, hd, by simp⟩
  | succ n ih =>
    rintro s hC rfl g sl fa ⟨g1, a1, h1⟩ ⟨s1, a2, h2⟩ ⟨f1, a3, h3⟩
    obtain ⟨c, e, k1, k2, k3⟩ := trio_round hA s hC a1 a2 a3
    obtain ⟨c', e', l1, l2, l3⟩ := ih ⟨c, g1, s1, f1⟩ k1 k2 h1 h2 h3
    refine ⟨c', ?_, l1, l2, ?_⟩
    · simp only [trioRounds, e, bind, Except.bind]; exact e'
    · rw [l3, k3]; push_cast; ring

/-- C132, the three step sizes: after any number of frames each of the three grids is where its own
run at `dt`, `dt/3` and `min(3 dt, 1)` leads, `dt` is as before and the one clock has counted all
three. -/
theorem fig_frames {A : Auto ℝ σ β} {C : σ → Prop} {F : ℝ → β → Except PyErr β}
    (hA : Spec.Ticks A C F) (k n : Nat) : ∀ (s : Trio σ β), C s.ca →
    ∀ {g sl fa : β}, Spec.Runs (F (A.dt s.ca)) (n * k) s.grid g →
    Spec.Runs (F (A.dt s.ca / 3)) (n * k) s.slow sl →
    Spec.Runs (F (min (A.dt s.ca * 3) 1)) (n * k) s.fast fa →
    ∃ ca', figFrames A k n s = .ok ⟨ca', g, sl, fa⟩ ∧ C ca' ∧ A.dt ca' = A.dt s.ca ∧
      A.t ca' = A.t s.ca +
        n * k * (A.dt s.ca + A.dt s.ca / 3 + min (3 * A.dt s.ca) 1) := by
  induction n with
  | zero =>
    intro s hC g sl fa h1 h2 h3
    rw [Nat.zero_mul] at h1 h2 h3
    cases h1; cases h2; cases h3
    exact ⟨s.ca, rfl, hC, rfl, by simp⟩
  | succ n ih =>
    intro s hC g sl fa h1 h2 h3
    rw [Nat.succ_mul, Nat.add_comm] at h1 h2 h3
    obtain ⟨g1, a1, b1⟩ := runs_add _ _ h1
    obtain ⟨g2, a2, b2⟩ := runs_add _ _ h2
    obtain ⟨g3, a3, b3⟩ := runs_add _ _ h3
    obtain ⟨c, e, k1, k2, k3⟩ := trio_rounds hA _ k s hC rfl a1 a2 a3
    obtain ⟨c', e', l1, l2, l3⟩ := ih ⟨c, g1, g2, g3⟩ k1 (by dsimp only; rw [k2]; exact b1)
      (by dsimp only; rw [k2]; exact b2) (by dsimp only; rw [k2]; exact b3)
    refine ⟨c', ?_, l1, l2.trans k2, ?_⟩
    · simp only [figFrames, updateFig, e, bind, Except.bind, pure, Except.pure]; exact e'
    · rw [l3]
      dsimp only
      rw [k3, k2]; push_cast; ring

/-- C132, the titles: above the slow and the middle grid stands the step size in use. -/
theorem fig_titles {A : Auto ℝ σ β} (k : Nat) (s : Trio σ β) {r : Trio σ β × (ℝ × ℝ × ℝ)}
    (h : updateFig A k s = .ok r) :
    r.2 = (A.dt s.ca / 3, A.dt s.ca, 3 * A.dt s.ca) := by
  simp only [updateFig, bind, Except.bind, pure, Except.pure] at h
  split at h
  · simp at h
  · cases h; rw [mul_comm 3]

/-- C132, exception: above a third the title of the fast grid is not the step size in use. -/
theorem fig_title_refuted {A : Auto ℝ σ β} (k : Nat) (s : Trio σ β) (hd : 1 / 3 < A.dt s.ca)
    {r : Trio σ β × (ℝ × ℝ × ℝ)} (h : updateFig A k s = .ok r) :
    r.2.2.2 ≠ min (A.dt s.ca * 3) 1 := by
  rw [fig_titles k s h]
  have h2 := min_le_right (A.dt s.ca * 3) (1 : ℝ)
  dsimp only
  intro h3
  linarith

/-! ### Running to a time -/

theorem run_until_steps {A : Auto ℝ σ β} {C : σ → Prop} {F : ℝ → β → Except PyErr β}
    (hA : Spec.Ticks A C F) (target : ℝ) (n : Nat) : ∀ (s : σ) (b b' : β), C s →
    target ≤ A.t s + n * A.dt s → (∀ m : Nat, m < n → A.t s + m * A.dt s < target) →
    Spec.Runs (F (A.dt s)) n b b' → ∃ s', C s' ∧ A.dt s' = A.dt s ∧ A.t s' = A.t s + n * A.dt s ∧
      ∀ fuel, n < fuel → runUntil A target fuel s b = some (.ok (b', s')) := by
  induction n with
  | zero =>
    intro s b b' hC ht _ hr
    cases hr
    refine ⟨s, hC, rfl, by simp, fun fuel hf => ?_⟩
    obtain ⟨f, rfl⟩ : ∃ f, fuel = f + 1 := ⟨fuel - 1, by omega⟩
    simp only [Nat.cast_zero, zero_mul, add_zero] at ht
    simp only [runUntil, if_neg (not_lt.2 ht)]
  | succ n ih =>
    rintro s b b' hC ht hlt ⟨c, hc, hr⟩
    obtain ⟨s1, e1, k1, k2, k3⟩ := hA.call_ok s hC b c hc
    obtain ⟨s', l1, l2, l3, l4⟩ := ih s1 c b' k1
      (by rw [k2, k3]; push_cast at ht; linarith)
      (fun m hm => by
        have := hlt (m + 1) (by omega)
        rw [k2, k3]; push_cast at this; linarith) (by rw [k2]; exact hr)
    refine ⟨s', l1, l2.trans k2, by rw [l3, k2, k3]; push_cast; ring, fun fuel hf => ?_⟩
    obtain ⟨f, rfl⟩ : ∃ f, fuel = f + 1 := ⟨fuel - 1, by omega⟩
    have h0 := hlt 0 (by omega)
    simp only [Nat.cast_zero, zero_mul, add_zero] at h0
    simp only [runUntil, if_pos h0, e1]
    exact l4 f (by omega)

/-- The number of steps a loop makes. -/
noncomputable def Spec.stepsTo (target t d : ℝ) : Nat := ⌈(target - t) / d⌉₊

theorem stepsTo_spec {target t d : ℝ} (hd : 0 < d) :
    target ≤ t + Spec.stepsTo target t d * d ∧
    (∀ m : Nat, m < Spec.stepsTo target t d → t + m * d < target) ∧
    (t ≤ target → t + Spec.stepsTo target t d * d < target + d) ∧
    (target ≤ t → Spec.stepsTo target t d = 0) := by
  refine ⟨?_, fun m hm => ?_, fun h => ?_, fun h => ?_⟩
  · have := (div_le_iff₀ hd).1 (Nat.le_ceil ((target - t) / d))
    unfold Spec.stepsTo
    linarith
  · have := (lt_div_iff₀ hd).1 (Nat.lt_ceil.1 hm)
    linarith
  · have h0 : 0 ≤ (target - t) / d := div_nonneg (by linarith) hd.le
    have := Nat.ceil_lt_add_one h0
    have h2 : (⌈(target - t) / d⌉₊ : ℝ) * d < ((target - t) / d + 1) * d :=
      mul_lt_mul_of_pos_right this hd
    rw [add_mul, div_mul_cancel₀ _ hd.ne', one_mul] at h2
    unfold Spec.stepsTo
    linarith
  · unfold Spec.stepsTo
    rw [Nat.ceil_eq_zero]
    exact div_nonpos_of_nonpos_of_nonneg (by linarith) hd.le

/-- C132, running to a time: with a positive step size the loop makes the least number of steps that
reach the target, and the clock ends less than one step behind it.  An automaton whose clock is at
the target already makes none. -/
theorem run_until {A : Auto ℝ σ β} {C : σ → Prop} {F : ℝ → β → Except PyErr β}
    (hA : Spec.Ticks A C F) (target : ℝ) (s : σ) (b b' : β) (hC : C s) (hd : 0 < A.dt s)
    (hr : Spec.Runs (F (A.dt s)) (Spec.stepsTo target (A.t s) (A.dt s)) b b') :
    ∃ s', C s' ∧ A.dt s' = A.dt s ∧
      A.t s' = A.t s + Spec.stepsTo target (A.t s) (A.dt s) * A.dt s ∧
      target ≤ A.t s' ∧ (A.t s ≤ target → A.t s' < target + A.dt s) ∧
      (target ≤ A.t s → A.t s' = A.t s ∧ b' = b) ∧
      ∀ fuel, Spec.stepsTo target (A.t s) (A.dt s) < fuel →
        runUntil A target fuel s b = some (.ok (b', s')) := by
  obtain ⟨h1, h2, h3, h4⟩ := stepsTo_spec (target := target) (t := A.t s) hd
  obtain ⟨s', k1, k2, k3, k4⟩ := run_until_steps hA target _ s b b' hC h1 h2 hr
  refine ⟨s', k1, k2, k3, k3 ▸ h1, fun h => k3 ▸ h3 h, fun h => ?_, k4⟩
  rw [h4 h] at hr k3
  exact ⟨by rw [k3]; simp, hr⟩

/-- C132: an exception on the way ends the loop. -/
theorem run_until_raises {A : Auto ℝ σ β} {C : σ → Prop} {F : ℝ → β → Except PyErr β}
    (hA : Spec.Ticks A C F) (target : ℝ) (n : Nat) : ∀ (s : σ) (b c : β) (e : PyErr), C s →
    (∀ m : Nat, m ≤ n → A.t s + m * A.dt s < target) → Spec.Runs (F (A.dt s)) n b c →
    F (A.dt s) c = .error e → ∀ fuel, n < fuel → runUntil A target fuel s b = some (.error e) := by
  induction n with
  | zero =>
    intro s b c e hC hlt hr he fuel hf
    cases hr
    obtain ⟨f, rfl⟩ : ∃ f, fuel = f + 1 := ⟨fuel - 1, by omega⟩
    have h0 := hlt 0 le_rfl
    simp only [Nat.cast_zero, zero_mul, add_zero] at h0
    simp only [runUntil, if_pos h0, hA.call_err s hC _ e he]
  | succ n ih =>
    rintro s b c e hC hlt ⟨x, hx, hr⟩ he fuel hf
    obtain ⟨f, rfl⟩ : ∃ f, fuel = f + 1 := ⟨fuel - 1, by omega⟩
    obtain ⟨s1, e1, k1, k2, k3⟩ := hA.call_ok s hC b x hx
    have h0 := hlt 0 (by omega)
    simp only [Nat.cast_zero, zero_mul, add_zero] at h0
    simp only [runUntil, if_pos h0, e1]
    refine ih s1 x c e k1 (fun m hm => ?_) (by rw [k2]; exact hr) (by rw [k2]; exact he) f (by omega)
    have := hlt (m + 1) (by omega)
    rw [k2, k3]; push_cast at this; linarith

/-- C132, exception: with a step size of zero or less the loop never ends. -/
theorem run_until_diverges {A : Auto ℝ σ β} {C : σ → Prop} {F : ℝ → β → Except PyErr β}
    (hA : Spec.Ticks A C F) (target : ℝ) (fuel : Nat) : ∀ (s : σ) (b : β), C s → A.dt s ≤ 0 →
    A.t s < target → (∀ b, ∃ b', F (A.dt s) b = .ok b') → runUntil A target fuel s b = none := by
  induction fuel with
  | zero => intros; rfl
  | succ f ih =>
    intro s b hC hd ht hF
    obtain ⟨c, hc⟩ := hF b
    obtain ⟨s1, e1, k1, k2, k3⟩ := hA.call_ok s hC b c hc
    simp only [runUntil, if_pos ht, e1]
    exact ih s1 c k1 (k2 ▸ hd) (by rw [k3]; linarith) (by rw [k2]; exact hF)

theorem runs_total {f : β → Except PyErr β} (hf : ∀ b, ∃ b', f b = .ok b') (n : Nat) :
    ∀ b, ∃ b', Spec.Runs f n b b' := by
  induction n with
  | zero => exact fun b => ⟨b, rfl⟩
  | succ n ih =>
    intro b
    obtain ⟨c, hc⟩ := hf b
    obtain ⟨b', h⟩ := ih c
    exact ⟨b', c, hc, h⟩

/-! ### Several automata side by side -/

/-- All clocks are at or after `T`, by less than a step of their own. -/
def Spec.InStep (A : Auto ℝ σ β) (T : ℝ) (l : List (σ × β)) : Prop :=
  ∀ p ∈ l, T ≤ A.t p.1 ∧ A.t p.1 < T + A.dt p.1

/-- An automaton and its grid have made some number of steps. -/
def Spec.Went (A : Auto ℝ σ β) (C : σ → Prop) (F : ℝ → β → Except PyErr β) (p q : σ × β) : Prop :=
  C q.1 ∧ A.dt q.1 = A.dt p.1 ∧ ∃ m : Nat, A.t q.1 = A.t p.1 + m * A.dt p.1 ∧
    Spec.Runs (F (A.dt p.1)) m p.2 q.2

theorem runs_trans {f : β → Except PyErr β} (m n : Nat) : ∀ {a b c : β}, Spec.Runs f m a b →
    Spec.Runs f n b c → Spec.Runs f (m + n) a c := by
  induction m with
  | zero => intro a b c h h'; cases h; simpa using h'
  | succ m ih =>
    rintro a b c ⟨x, hx, h⟩ h'
    rw [Nat.succ_add]
    exact ⟨x, hx, ih h h'⟩

theorem went_trans {A : Auto ℝ σ β} {C : σ → Prop} {F : ℝ → β → Except PyErr β} {p q r : σ × β}
    (h : Spec.Went A C F p q) (h' : Spec.Went A C F q r) : Spec.Went A C F p r := by
  obtain ⟨_, h2, m, h3, h4⟩ := h
  obtain ⟨k1, k2, n, k3, k4⟩ := h'
  refine ⟨k1, k2.trans h2, m + n, ?_, runs_trans m n h4 (h2 ▸ k4)⟩
  rw [k3, h3, h2]; push_cast; ring

theorem update_go {A : Auto ℝ σ β} {C : σ → Prop} {F : ℝ → β → Except PyErr β}
    (hA : Spec.Ticks A C F) (hF : ∀ d b, ∃ b', F d b = .ok b') (T T' : ℝ) (hT : T ≤ T')
    (l : List (σ × β)) : (∀ p ∈ l, C p.1 ∧ 0 < A.dt p.1) → Spec.InStep A T l →
    ∃ l' F0, List.Forall₂ (Spec.Went A C F) l l' ∧ Spec.InStep A T' l' ∧
      ∀ fuel, F0 ≤ fuel → updateAll.go A fuel T' l = some (.ok l') := by
  induction l with
  | nil => intro _ _; exact ⟨[], 0, .nil, by simp [Spec.InStep], fun _ _ => rfl⟩
  | cons p l ih =>
    intro hp hin
    obtain ⟨l', F0, k1, k2, k3⟩ := ih (fun q hq => hp q (List.mem_cons_of_mem _ hq))
      (fun q hq => hin q (List.mem_cons_of_mem _ hq))
    obtain ⟨hC, hd⟩ := hp p List.mem_cons_self
    obtain ⟨i1, i2⟩ := hin p List.mem_cons_self
    obtain ⟨b', hb'⟩ := runs_total (hF (A.dt p.1)) (Spec.stepsTo T' (A.t p.1) (A.dt p.1)) p.2
    obtain ⟨s', r1, r2, r3, r4, r5, r6, r7⟩ := run_until hA T' p.1 p.2 b' hC hd hb'
    refine ⟨(s', b') :: l', max F0 (Spec.stepsTo T' (A.t p.1) (A.dt p.1) + 1), ?_, ?_, ?_⟩
    · exact .cons ⟨r1, r2, _, r3, hb'⟩ k1
    · intro q hq
      rcases List.mem_cons.1 hq with rfl | hq
      · refine ⟨r4, ?_⟩
        dsimp only
        rw [r2]
        rcases le_total (A.t p.1) T' with h | h
        · exact r5 h
        · rw [(r6 h).1]; linarith
      · exact k2 q hq
    · intro fuel hf
      obtain ⟨s, b⟩ := p
      simp only [updateAll.go, r7 fuel (by omega), k3 fuel (by omega)]

/-- C132, several automata: if their clocks start at one time, then after any number of frames each
has made a number of its own steps, and all clocks are within a step of each other. -/
theorem all_frames {A : Auto ℝ σ β} {C : σ → Prop} {F : ℝ → β → Except PyErr β}
    (hA : Spec.Ticks A C F) (hF : ∀ d b, ∃ b', F d b = .ok b') (n : Nat) :
    ∀ (T : ℝ) (l : List (σ × β)), l ≠ [] → (∀ p ∈ l, C p.1 ∧ 0 < A.dt p.1) → Spec.InStep A T l →
    ∃ T' l' F0, List.Forall₂ (Spec.Went A C F) l l' ∧ T + n * (1 / 10) ≤ T' ∧ Spec.InStep A T' l' ∧
      ∀ fuel, F0 ≤ fuel → allFrames A fuel n l = some (.ok l') := by
  induction n with
  | zero =>
    intro T l _ hp hin
    refine ⟨T, l, 0, ?_, by simp, hin, fun _ _ => rfl⟩
    exact List.forall₂_same.2 fun p hpl => ⟨(hp p hpl).1, rfl, 0, by simp, rfl⟩
  | succ n ih =>
    intro T l hne hp hin
    obtain ⟨⟨s, b⟩, rest, rfl⟩ := List.exists_cons_of_ne_nil hne
    have h10 := le_max_left (1 / 10 : ℝ) (A.dt s)
    have hs := (hin (s, b) List.mem_cons_self).1
    dsimp only at hs
    have hT : T + 1 / 10 ≤ frameTarget A s := by unfold frameTarget; linarith
    obtain ⟨l1, F1, w1, i1, e1⟩ := update_go hA hF T (frameTarget A s) (by linarith) _ hp hin
    have hne1 : l1 ≠ [] := by
      rintro rfl; cases w1
    have hp1 : ∀ p ∈ l1, C p.1 ∧ 0 < A.dt p.1 := by
      intro q hq
      obtain ⟨i, hi, rfl⟩ := List.getElem_of_mem hq
      have hlen := w1.length_eq
      have hw := (List.forall₂_iff_get.1 w1).2 i (by omega) hi
      simp only [List.get_eq_getElem] at hw
      exact ⟨hw.1, by rw [hw.2.1]; exact (hp _ (List.getElem_mem _)).2⟩
    obtain ⟨T2, l2, F2, w2, t2, i2, e2⟩ := ih _ l1 hne1 hp1 i1
    refine ⟨T2, l2, max F1 F2, ?_, by push_cast; linarith, i2, fun fuel hf => ?_⟩
    · refine List.forall₂_iff_get.2 ⟨w1.length_eq.trans w2.length_eq, fun i h1 h2 => ?_⟩
      exact went_trans ((List.forall₂_iff_get.1 w1).2 i h1 (by rw [← w1.length_eq]; exact h1))
        ((List.forall₂_iff_get.1 w2).2 i (by rw [← w1.length_eq]; exact h1) h2)
    · simp only [allFrames, updateAll, e1 fuel (by omega)]
      exact e2 fuel (by omega)

/-- C132, one frame: the time all are run to is a tenth, or a step of the first if that is more, after
the time of the first. -/
theorem one_frame {A : Auto ℝ σ β} {C : σ → Prop} {F : ℝ → β → Except PyErr β}
    (hA : Spec.Ticks A C F) (hF : ∀ d b, ∃ b', F d b = .ok b') (T : ℝ) (s : σ) (b : β)
    (l : List (σ × β)) (hp : ∀ p ∈ (s, b) :: l, C p.1 ∧ 0 < A.dt p.1)
    (hin : Spec.InStep A T ((s, b) :: l)) :
    ∃ l' F0, List.Forall₂ (Spec.Went A C F) ((s, b) :: l) l' ∧
      Spec.InStep A (A.t s + max (1 / 10) (A.dt s)) l' ∧
      ∀ fuel, F0 ≤ fuel → updateAll A fuel ((s, b) :: l) = some (.ok l') := by
  have h10 := le_max_left (1 / 10 : ℝ) (A.dt s)
  have hs := (hin (s, b) List.mem_cons_self).1
  dsimp only at hs
  exact update_go hA hF T _ (by linarith) _ hp hin

/-- C132: so no two clocks are ever further apart than the larger of their step sizes. -/
theorem in_step_close {A : Auto ℝ σ β} {T : ℝ} {l : List (σ × β)} (h : Spec.InStep A T l)
    {p q : σ × β} (hp : p ∈ l) (hq : q ∈ l) : |A.t p.1 - A.t q.1| < max (A.dt p.1) (A.dt q.1) := by
  obtain ⟨a1, a2⟩ := h p hp
  obtain ⟨b1, b2⟩ := h q hq
  rw [abs_sub_lt_iff]
  exact ⟨lt_of_lt_of_le (by linarith) (le_max_left _ _), lt_of_lt_of_le (by linarith) (le_max_right _ _)⟩

/-! ### Recording the centre of mass -/

/-- C132, the recorded tracks: one value for every step, of the grid after it; the loop ends when the
clock reaches the target, or at the first grid that is dead, which is not recorded. -/
theorem track_until {D : Type} {A : Auto ℝ σ β} {C : σ → Prop} {F : ℝ → β → Except PyErr β}
    (hA : Spec.Ticks A C F) (dead : β → Bool) (com : β → D) (target : ℝ) (gs : Nat → β) (n : Nat) :
    ∀ (s : σ) (k : Nat) (coms : List D), C s →
    (∀ i, F (A.dt s) (gs i) = .ok (gs (i + 1))) →
    (∀ m : Nat, m < n → A.t s + m * A.dt s < target) → (∀ i, k < i → i < k + n → dead (gs i) = false) →
    (dead (gs (k + n)) = true → 0 < n →
      ∃ s', A.t s' = A.t s + n * A.dt s ∧ ∀ fuel, n ≤ fuel →
        trackUntil A dead com target fuel s (gs k) coms = some (.ok
          ⟨coms ++ (List.range (n - 1)).map (fun i => com (gs (k + i + 1))), gs (k + n), s', true⟩)) ∧
    ((0 < n → dead (gs (k + n)) = false) → target ≤ A.t s + n * A.dt s →
      ∃ s', A.t s' = A.t s + n * A.dt s ∧ ∀ fuel, n < fuel →
        trackUntil A dead com target fuel s (gs k) coms = some (.ok
          ⟨coms ++ (List.range n).map (fun i => com (gs (k + i + 1))), gs (k + n), s', false⟩)) := by
  induction n with
  | zero =>
    intro s k coms hC _ _ _
    refine ⟨fun _ h => by omega, fun _ ht => ⟨s, by simp, fun fuel hf => ?_⟩⟩
    obtain ⟨f, rfl⟩ : ∃ f, fuel = f + 1 := ⟨fuel - 1, by omega⟩
    simp only [Nat.cast_zero, zero_mul, add_zero] at ht
    simp [trackUntil, if_neg (not_lt.2 ht)]
  | succ n ih =>
    intro s k coms hC hF hlt hdead
    obtain ⟨s1, e1, k1, k2, k3⟩ := hA.call_ok s hC _ _ (hF k)
    have h0 := hlt 0 (by omega)
    simp only [Nat.cast_zero, zero_mul, add_zero] at h0
    obtain ⟨ihd, iha⟩ := ih s1 (k + 1) (coms ++ [com (gs (k + 1))]) k1 (by rw [k2]; exact hF)
      (fun m hm => by
        have := hlt (m + 1) (by omega)
        rw [k2, k3]; push_cast at this; linarith)
      (fun i h1 h2 => hdead i (by omega) (by omega))
    have hidx : k + 1 + n = k + (n + 1) := by omega
    rw [hidx] at ihd iha
    have hclock : ∀ s' : σ, A.t s' = A.t s1 + n * A.dt s1 → A.t s' = A.t s + (n + 1 : ℕ) * A.dt s := by
      intro s' h; rw [h, k2, k3]; push_cast; ring
    have hrange : ∀ m, [com (gs (k + 1))] ++ (List.range m).map (fun i => com (gs (k + 1 + i + 1))) =
        (List.range (m + 1)).map fun i => com (gs (k + i + 1)) := by
      intro m
      rw [List.range_succ_eq_map]
      simp only [List.map_cons, List.map_map, List.singleton_append]
      refine congrArg₂ _ (by simp) (List.map_congr_left fun i _ => ?_)
      simp only [Function.comp]
      congr 2; omega
    constructor
    · intro hd _
      by_cases hn : n = 0
      · subst hn
        refine ⟨s1, hclock s1 (by simp), fun fuel hf => ?_⟩
        obtain ⟨f, rfl⟩ : ∃ f, fuel = f + 1 := ⟨fuel - 1, by omega⟩
        rw [Nat.zero_add] at hd
        simp only [trackUntil, if_pos h0, e1, hd, if_true]
        simp
      · obtain ⟨s', c1, c2⟩ := ihd hd (by omega)
        refine ⟨s', hclock s' c1, fun fuel hf => ?_⟩
        obtain ⟨f, rfl⟩ : ∃ f, fuel = f + 1 := ⟨fuel - 1, by omega⟩
        have hg : dead (gs (k + 1)) = false := hdead (k + 1) (by omega) (by omega)
        simp only [trackUntil, if_pos h0, e1, hg]
        rw [if_neg (by simp), c2 f (by omega), List.append_assoc, hrange]
        have : n - 1 + 1 = n + 1 - 1 := by omega
        rw [this]
    · intro hd ht
      obtain ⟨s', c1, c2⟩ := iha (fun _ => hd (by omega)) (by rw [k2, k3]; push_cast at ht; linarith)
      refine ⟨s', hclock s' c1, fun fuel hf => ?_⟩
      obtain ⟨f, rfl⟩ : ∃ f, fuel = f + 1 := ⟨fuel - 1, by omega⟩
      have hg : dead (gs (k + 1)) = false := by
        by_cases hn : n = 0
        · subst hn; exact hd (by omega)
        · exact hdead (k + 1) (by omega) (by omega)
      simp only [trackUntil, if_pos h0, e1, hg]
      rw [if_neg (by simp), c2 f (by omega), List.append_assoc, hrange]

/-! ### Examples -/

/-- An automaton that counts its calls; its state holds the step size and the time. -/
noncomputable def Witness.ticker : Auto ℝ (ℝ × ℝ) ℕ where
  call s b := .ok (b + 1, (s.1, s.2 + s.1))
  t := Prod.snd
  dt := Prod.fst
  setDt s d := (d, s.2)

theorem ticker_ticks : Spec.Ticks Witness.ticker (fun _ => True) fun _ b => .ok (b + 1) where
  call_ok := by
    rintro s _ b b' h
    cases h
    exact ⟨_, rfl, trivial, rfl, rfl⟩
  call_err := by
    rintro s _ b e h
    cases h
  set := fun s _ d => ⟨trivial, rfl, rfl⟩

/-- From time 0 with steps of 0.3 the time 1 is reached in 4 steps. -/
example : ∃ s', Witness.ticker.t s' = 6 / 5 ∧
    runUntil Witness.ticker 1 5 (3 / 10, 0) 0 = some (.ok (4, s')) := by
  obtain ⟨s', _, _, h3, h4⟩ := run_until_steps ticker_ticks 1 4 (3 / 10, 0) 0 4 trivial
    (by norm_num [Witness.ticker]) (fun m hm => by
      have : m = 0 ∨ m = 1 ∨ m = 2 ∨ m = 3 := by omega
      rcases this with rfl | rfl | rfl | rfl <;> norm_num [Witness.ticker])
    ⟨1, rfl, 2, rfl, 3, rfl, 4, rfl, rfl⟩
  exact ⟨s', by rw [h3]; norm_num [Witness.ticker], h4 5 (by norm_num)⟩

/-- Two automata with steps of 0.3 and 0.1 stay within 0.3 of each other for 512 frames. -/
example : ∃ T' l' F0, 512 * (1 / 10) ≤ T' ∧ Spec.InStep Witness.ticker T' l' ∧
    ∀ fuel, F0 ≤ fuel →
      allFrames Witness.ticker fuel 512 [((3 / 10, 0), 0), ((1 / 10, 0), 0)] = some (.ok l') := by
  obtain ⟨T', l', F0, _, h2, h3, h4⟩ := all_frames ticker_ticks (fun _ b => ⟨b + 1, rfl⟩) 512 0
    [((3 / 10, 0), 0), ((1 / 10, 0), 0)] (by simp)
    (by simp [Witness.ticker]) (by simp [Spec.InStep, Witness.ticker])
  exact ⟨T', l', F0, by simpa using h2, h3, h4⟩

/-- A track of four steps, and one that ends with the third grid dead. -/
example : (∃ s', ∀ fuel, 4 < fuel → trackUntil Witness.ticker (fun _ => false) id 1 fuel
      (3 / 10, 0) 0 [] = some (.ok ⟨[1, 2, 3, 4], 4, s', false⟩)) ∧
    ∃ s', ∀ fuel, 3 ≤ fuel → trackUntil Witness.ticker (fun b => b = 3) id 1 fuel
      (3 / 10, 0) 0 [] = some (.ok ⟨[1, 2], 3, s', true⟩) := by
  have hlt : ∀ m : Nat, m < 4 → (0 : ℝ) + m * (3 / 10) < 1 := fun m hm => by
    have : m = 0 ∨ m = 1 ∨ m = 2 ∨ m = 3 := by omega
    rcases this with rfl | rfl | rfl | rfl <;> norm_num
  refine ⟨?_, ?_⟩
  · obtain ⟨s', _, h⟩ := (track_until ticker_ticks (fun _ => false) id 1 id 4 (3 / 10, 0) 0 []
      trivial (fun _ => rfl) hlt (fun _ _ _ => rfl)).2 (fun _ => rfl) (by norm_num [Witness.ticker])
    exact ⟨s', h⟩
  · obtain ⟨s', _, h⟩ := (track_until ticker_ticks (fun b => b = 3) id 1 id 3 (3 / 10, 0) 0 []
      trivial (fun _ => rfl) (fun m hm => hlt m (by omega)) (fun i h1 h2 => by simp; omega)).1
      rfl (by norm_num)
    exact ⟨s', h⟩

end Yuca
