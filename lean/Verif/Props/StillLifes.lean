import Verif.Props.Trajectories
import Verif.Props.Continuity
import Verif.Props.Faint

/-!
# Still lifes (C117)

A universe that a step does not change.  Over exact reals, for every padding mode, kernel, growth
function and weights layer.
-/

namespace Yuca

open Arith Spec

variable {N ext int H W : Nat}

namespace Spec

/-- The rate `v` moves no cell of `u`: a cell below 1 is not pushed up, a cell above 0 is not pushed
down. -/
def AtRest {C : Nat} (u v : Univ ℝ N C H W) : Prop :=
  ∀ n e i j, (0 ≤ u n e i j ∧ u n e i j ≤ 1) ∧ (u n e i j < 1 → v n e i j ≤ 0) ∧
    (0 < u n e i j → 0 ≤ v n e i j)

/-- The alive mask has nothing to remove: with four channels or more, wherever channel 3 is not above
the threshold the cell is empty. -/
def Unmasked {C : Nat} (thr : ℝ) (u : Univ ℝ N C H W) : Prop :=
  ∀ (h : 4 ≤ C) n i j, u n ⟨3, by omega⟩ i j ≤ thr → ∀ e, u n e i j = 0

/-- `v` is the rate at which a `CCA` changes `u`. -/
def CcaRate (ca : CCA ℝ ext int) (u v : Univ ℝ N ext H W) : Prop :=
  ∃ idn nb, ca.idL.apply u = .ok idn ∧ ca.nbL.apply u = .ok nb ∧ ca.updateUniverse idn nb = .ok v

/-- `v` is the rate at which a `Lenia` changes `u`. -/
def LeniaRate (ca : CCA ℝ ext int) (u v : Univ ℝ N ext H W) : Prop :=
  ∃ idn nb, ca.idL.apply u = .ok idn ∧ ca.nbL.apply u = .ok nb ∧ ca.leniaUpdateUniverse nb = .ok v

/-- `v` is the rate at which a neural automaton changes `u` (with this dropout mask, if any). -/
def NcaRate {hid : Nat} (ca : NCA ℝ ext int hid) (drop : Option (Univ ℝ N hid H W))
    (u v : Univ ℝ N ext H W) : Prop :=
  ∃ idn nb, ca.idL.apply u = .ok idn ∧ ca.nbL.apply u = .ok nb ∧ ca.updateUniverse drop idn nb = .ok v

/-- `v` is the rate at which a Gray-Scott automaton changes `u`. -/
def RxnRate (ca : RxnDfn ℝ) (u v : Univ ℝ N 2 H W) : Prop :=
  ∃ idn nb, ca.idL.apply u = .ok idn ∧ ca.nbL.apply u = .ok nb ∧ v = ca.updateUniverse idn nb

end Spec

theorem alive_unmasked {C : Nat} {thr : ℝ} {u : Univ ℝ N C H W} :
    alive thr u = u ↔ Unmasked thr u := by
  constructor
  · intro h h4 n i j hle e
    have := congrFun (congrFun (congrFun (congrFun h n) e) i) j
    rw [alive, dif_pos h4, if_neg (not_lt.2 hle)] at this
    exact this.symm
  · intro h
    funext n e i j
    unfold alive
    split
    · rename_i h4
      split
      · rfl
      · rename_i hn
        exact (h h4 n i j (not_lt.1 hn) e).symm
    · rfl

/-- One cell: a positive step leaves it where it is exactly if it is at rest. -/
theorem clip_rest_iff {x h g : ℝ} (hh : 0 < h) :
    clip (x + h * g) = x ↔ (0 ≤ x ∧ x ≤ 1) ∧ (x < 1 → g ≤ 0) ∧ (0 < x → 0 ≤ g) := by
  constructor
  · intro e
    have hm := clip_mem (x + h * g)
    rw [e] at hm
    refine ⟨hm, fun hx => ?_, fun hx => ?_⟩
    · by_contra hg
      push Not at hg
      have : 0 < h * g := mul_pos hh hg
      unfold clip at e
      have h1 : x < min 1 (x + h * g) := lt_min hx (by linarith)
      have h2 := le_max_right 0 (min 1 (x + h * g))
      linarith
    · by_contra hg
      push Not at hg
      have : h * g < 0 := mul_neg_of_pos_of_neg hh hg
      unfold clip at e
      have h1 : max 0 (min 1 (x + h * g)) < x :=
        max_lt hx (lt_of_le_of_lt (min_le_right _ _) (by linarith))
      linarith
  · rintro ⟨⟨h0, h1⟩, h2, h3⟩
    rcases lt_or_ge 0 x with hx0 | hx0
    · have hg := h3 hx0
      rcases lt_or_ge x 1 with hx1 | hx1
      · have : g = 0 := le_antisymm (h2 hx1) hg
        rw [this, mul_zero, add_zero, clip_eq h0 h1]
      · have hx : x = 1 := le_antisymm h1 hx1
        have : 0 ≤ h * g := mul_nonneg hh.le hg
        subst hx
        unfold clip
        rw [min_eq_left (by linarith), max_eq_right zero_le_one]
    · have hx : x = 0 := le_antisymm hx0 h0
      subst hx
      have : h * g ≤ 0 := mul_nonpos_of_nonneg_of_nonpos hh.le (h2 one_pos)
      unfold clip
      rw [zero_add, max_eq_left ((min_le_right _ _).trans this)]

/-- A whole universe: a positive step leaves it unchanged exactly if every cell is at rest. -/
theorem eulerClamp_rest_iff {C : Nat} {h : ℝ} (hh : 0 < h) {u v : Univ ℝ N C H W} :
    eulerClamp h u v = u ↔ AtRest u v := by
  have key : ∀ n e i j, eulerClamp h u v n e i j = clip (u n e i j + h * v n e i j) := fun n e i j => by
    simp only [eulerClamp, clamp01_real]; rfl
  constructor
  · intro hu n e i j
    have := congrFun (congrFun (congrFun (congrFun hu n) e) i) j
    rw [key] at this
    exact (clip_rest_iff hh).1 this
  · intro hr
    funext n e i j
    rw [key]
    exact (clip_rest_iff hh).2 (hr n e i j)

/-- A universe at rest stays, whatever the size of the step, also zero. -/
theorem eulerClamp_rest {C : Nat} {h : ℝ} (hh : 0 ≤ h) {u v : Univ ℝ N C H W} (hr : AtRest u v) :
    eulerClamp h u v = u := by
  rcases hh.lt_or_eq with h0 | h0
  · exact (eulerClamp_rest_iff h0).2 hr
  · subst h0
    funext n e i j
    have := hr n e i j
    simp only [eulerClamp, clamp01_real, Arith.add, Arith.mul, zero_mul, add_zero]
    exact clip_eq this.1.1 this.1.2

theorem maskIf_unmasked {C : Nat} {thr : ℝ} {u : Univ ℝ N C H W} (h : Unmasked thr u) :
    maskIf thr u = u := by rw [maskIf_alive, alive_unmasked.2 h]

/-! ## Which universes are still, class by class -/

theorem ccaRate_unique {ca : CCA ℝ ext int} {u v v' : Univ ℝ N ext H W} (h : CcaRate ca u v)
    (h' : CcaRate ca u v') : v = v' := by
  obtain ⟨a, b, h1, h2, h3⟩ := h
  obtain ⟨a', b', h1', h2', h3'⟩ := h'
  rw [h1] at h1'; cases h1'
  rw [h2] at h2'; cases h2'
  rw [h3] at h3'; cases h3'
  rfl

theorem cca_forward_rate {ca : CCA ℝ ext int} {u v : Univ ℝ N ext H W} (hu : Unmasked ca.thr u)
    (hv : CcaRate ca u v) :
    ca.forward u = .ok (eulerClamp ca.dt u v, { ca with t := ca.t + ca.dt }) := by
  obtain ⟨a, b, h1, h2, h3⟩ := hv
  unfold CCA.forward
  simp only [maskIf_unmasked hu, h1, h2, h3, Bind.bind, Except.bind, pure, Except.pure]
  rfl

theorem lenia_forward_rate {ca : CCA ℝ ext int} {u v : Univ ℝ N ext H W} (hu : Unmasked ca.thr u)
    (hv : LeniaRate ca u v) :
    ca.leniaForward u = .ok (eulerClamp ca.dt u v, { ca with t := ca.t + ca.dt }) := by
  obtain ⟨a, b, h1, h2, h3⟩ := hv
  unfold CCA.leniaForward
  simp only [maskIf_unmasked hu, h1, h2, h3, Bind.bind, Except.bind, pure, Except.pure]
  rfl

theorem nca_forward_rate {hid : Nat} {ca : NCA ℝ ext int hid} {drop : Option (Univ ℝ N hid H W)}
    {u v : Univ ℝ N ext H W} (hu : Unmasked ca.thr u) (hv : NcaRate ca drop u v) :
    ca.forward drop u = .ok (eulerClamp ca.dt u v, { ca with t := ca.t + ca.dt }) := by
  obtain ⟨a, b, h1, h2, h3⟩ := hv
  unfold NCA.forward
  simp only [maskIf_unmasked hu, h1, h2, h3, Bind.bind, Except.bind, pure, Except.pure]
  rfl

theorem rxn_forward_rate {ca : RxnDfn ℝ} {u v : Univ ℝ N 2 H W} (hv : RxnRate ca u v) :
    ca.forward u = .ok (eulerClamp ca.dt u v, { ca with t := ca.t + ca.dt }) := by
  obtain ⟨a, b, h1, h2, h3⟩ := hv
  unfold RxnDfn.forward
  simp only [h1, h2, h3, Bind.bind, Except.bind, pure, Except.pure]
  rfl

/-- C117: a `CCA` with a positive step leaves a universe unchanged exactly if the rate of change
moves no cell; the size of the step does not occur. -/
theorem cca_still_iff {ca : CCA ℝ ext int} (hdt : 0 < ca.dt) {u : Univ ℝ N ext H W}
    (hu : Unmasked ca.thr u) :
    (∃ ca', ca.forward u = .ok (u, ca')) ↔ ∃ v, CcaRate ca u v ∧ AtRest u v := by
  constructor
  · rintro ⟨ca', h⟩
    obtain ⟨a, b, v, h1, h2, h3, h4⟩ := CCA.forward_ok h
    rw [maskIf_unmasked hu] at h1 h2 h4
    exact ⟨v, ⟨a, b, h1, h2, h3⟩, (eulerClamp_rest_iff hdt).1 (Prod.ext_iff.1 h4).1.symm⟩
  · rintro ⟨v, hv, hr⟩
    rw [cca_forward_rate hu hv, eulerClamp_rest hdt.le hr]
    exact ⟨_, rfl⟩

/-- C117: the same for `Lenia`. -/
theorem lenia_still_iff {ca : CCA ℝ ext int} (hdt : 0 < ca.dt) {u : Univ ℝ N ext H W}
    (hu : Unmasked ca.thr u) :
    (∃ ca', ca.leniaForward u = .ok (u, ca')) ↔ ∃ v, LeniaRate ca u v ∧ AtRest u v := by
  constructor
  · rintro ⟨ca', h⟩
    obtain ⟨a, b, v, h1, h2, h3, h4⟩ := CCA.leniaForward_ok h
    rw [maskIf_unmasked hu] at h1 h2 h4
    exact ⟨v, ⟨a, b, h1, h2, h3⟩, (eulerClamp_rest_iff hdt).1 (Prod.ext_iff.1 h4).1.symm⟩
  · rintro ⟨v, hv, hr⟩
    rw [lenia_forward_rate hu hv, eulerClamp_rest hdt.le hr]
    exact ⟨_, rfl⟩

/-- C117: the same for neural automata, with and without dropout. -/
theorem nca_still_iff {hid : Nat} {ca : NCA ℝ ext int hid} (hdt : 0 < ca.dt)
    {drop : Option (Univ ℝ N hid H W)} {u : Univ ℝ N ext H W} (hu : Unmasked ca.thr u) :
    (∃ ca', ca.forward drop u = .ok (u, ca')) ↔ ∃ v, NcaRate ca drop u v ∧ AtRest u v := by
  constructor
  · rintro ⟨ca', h⟩
    obtain ⟨a, b, v, h1, h2, h3, h4⟩ := NCA.forward_ok h
    rw [maskIf_unmasked hu] at h1 h2 h4
    exact ⟨v, ⟨a, b, h1, h2, h3⟩, (eulerClamp_rest_iff hdt).1 (Prod.ext_iff.1 h4).1.symm⟩
  · rintro ⟨v, hv, hr⟩
    rw [nca_forward_rate hu hv, eulerClamp_rest hdt.le hr]
    exact ⟨_, rfl⟩

/-- C117: the same for Gray-Scott automata. -/
theorem rxn_still_iff {ca : RxnDfn ℝ} (hdt : 0 < ca.dt) {u : Univ ℝ N 2 H W} :
    (∃ ca', ca.forward u = .ok (u, ca')) ↔ ∃ v, RxnRate ca u v ∧ AtRest u v := by
  constructor
  · rintro ⟨ca', h⟩
    obtain ⟨a, b, h1, h2, h4⟩ := RxnDfn.forward_ok h
    exact ⟨_, ⟨a, b, h1, h2, rfl⟩, (eulerClamp_rest_iff hdt).1 (Prod.ext_iff.1 h4).1.symm⟩
  · rintro ⟨v, hv, hr⟩
    rw [rxn_forward_rate hv, eulerClamp_rest hdt.le hr]
    exact ⟨_, rfl⟩

/-! ## A still life of one step size is one of all of them -/

theorem cca_rest_run {u v : Univ ℝ N ext H W} (hr : AtRest u v) (n : Nat) :
    ∀ ca : CCA ℝ ext int, 0 ≤ ca.dt → Unmasked ca.thr u → CcaRate ca u v →
      iterate CCA.forward n ca u = .ok (u, { ca with t := ca.t + n * ca.dt }) := by
  induction n with
  | zero => intro ca _ _ _; simp [iterate]
  | succ n ih =>
    intro ca hdt hu hv
    show (do
      let (b', s') ← ca.forward u
      iterate CCA.forward n s' b') = _
    rw [cca_forward_rate hu hv, eulerClamp_rest hdt hr]
    show iterate CCA.forward n { ca with t := ca.t + ca.dt } u = _
    rw [ih { ca with t := ca.t + ca.dt } hdt hu hv]
    congr 3
    push_cast
    ring

theorem lenia_rest_run {u v : Univ ℝ N ext H W} (hr : AtRest u v) (n : Nat) :
    ∀ ca : CCA ℝ ext int, 0 ≤ ca.dt → Unmasked ca.thr u → LeniaRate ca u v →
      iterate CCA.leniaForward n ca u = .ok (u, { ca with t := ca.t + n * ca.dt }) := by
  induction n with
  | zero => intro ca _ _ _; simp [iterate]
  | succ n ih =>
    intro ca hdt hu hv
    show (do
      let (b', s') ← ca.leniaForward u
      iterate CCA.leniaForward n s' b') = _
    rw [lenia_forward_rate hu hv, eulerClamp_rest hdt hr]
    show iterate CCA.leniaForward n { ca with t := ca.t + ca.dt } u = _
    rw [ih { ca with t := ca.t + ca.dt } hdt hu hv]
    congr 3
    push_cast
    ring

theorem nca_rest_run {hid : Nat} {u v : Univ ℝ N ext H W} (hr : AtRest u v) (n : Nat) :
    ∀ ca : NCA ℝ ext int hid, 0 ≤ ca.dt → Unmasked ca.thr u → NcaRate ca none u v →
      iterate (fun ca u => NCA.forward ca none u) n ca u =
        .ok (u, { ca with t := ca.t + n * ca.dt }) := by
  induction n with
  | zero => intro ca _ _ _; simp [iterate]
  | succ n ih =>
    intro ca hdt hu hv
    show (do
      let (b', s') ← ca.forward none u
      iterate (fun ca u => NCA.forward ca none u) n s' b') = _
    rw [nca_forward_rate hu hv, eulerClamp_rest hdt hr]
    show iterate (fun ca u => NCA.forward ca none u) n { ca with t := ca.t + ca.dt } u = _
    rw [ih { ca with t := ca.t + ca.dt } hdt hu hv]
    congr 3
    push_cast
    ring

theorem rxn_rest_run {u v : Univ ℝ N 2 H W} (hr : AtRest u v) (n : Nat) :
    ∀ ca : RxnDfn ℝ, 0 ≤ ca.dt → RxnRate ca u v →
      iterate RxnDfn.forward n ca u = .ok (u, { ca with t := ca.t + n * ca.dt }) := by
  induction n with
  | zero => intro ca _ _; simp [iterate]
  | succ n ih =>
    intro ca hdt hv
    show (do
      let (b', s') ← ca.forward u
      iterate RxnDfn.forward n s' b') = _
    rw [rxn_forward_rate hv, eulerClamp_rest hdt hr]
    show iterate RxnDfn.forward n { ca with t := ca.t + ca.dt } u = _
    rw [ih { ca with t := ca.t + ca.dt } hdt hv]
    congr 3
    push_cast
    ring

/-- C117: a universe that one step of a `CCA` leaves unchanged is left unchanged for ever, with any
other step size as well. -/
theorem cca_still_forever {ca ca' : CCA ℝ ext int} (hdt : 0 < ca.dt) {u : Univ ℝ N ext H W}
    (hu : Unmasked ca.thr u) (h : ca.forward u = .ok (u, ca')) (d : ℝ) (hd : 0 ≤ d) (n : Nat) :
    iterate CCA.forward n (ca.setDt d) u =
      .ok (u, { ca.setDt d with t := ca.t + n * d }) := by
  obtain ⟨v, hv, hr⟩ := (cca_still_iff hdt hu).1 ⟨_, h⟩
  exact cca_rest_run hr n (ca.setDt d) hd hu hv

/-- C117: the same for `Lenia`. -/
theorem lenia_still_forever {ca ca' : CCA ℝ ext int} (hdt : 0 < ca.dt) {u : Univ ℝ N ext H W}
    (hu : Unmasked ca.thr u) (h : ca.leniaForward u = .ok (u, ca')) (d : ℝ) (hd : 0 ≤ d) (n : Nat) :
    iterate CCA.leniaForward n (ca.setDt d) u =
      .ok (u, { ca.setDt d with t := ca.t + n * d }) := by
  obtain ⟨v, hv, hr⟩ := (lenia_still_iff hdt hu).1 ⟨_, h⟩
  exact lenia_rest_run hr n (ca.setDt d) hd hu hv

/-- C117: the same for neural automata in evaluation mode. -/
theorem nca_still_forever {hid : Nat} {ca ca' : NCA ℝ ext int hid} (hdt : 0 < ca.dt)
    {u : Univ ℝ N ext H W} (hu : Unmasked ca.thr u) (h : ca.forward none u = .ok (u, ca'))
    (d : ℝ) (hd : 0 ≤ d) (n : Nat) :
    iterate (fun ca u => NCA.forward ca none u) n { ca with dt := d } u =
      .ok (u, { ca with dt := d, t := ca.t + n * d }) := by
  obtain ⟨v, hv, hr⟩ := (nca_still_iff hdt hu).1 ⟨_, h⟩
  exact nca_rest_run hr n { ca with dt := d } hd hu hv

/-- C117: the same for Gray-Scott automata. -/
theorem rxn_still_forever {ca ca' : RxnDfn ℝ} (hdt : 0 < ca.dt) {u : Univ ℝ N 2 H W}
    (h : ca.forward u = .ok (u, ca')) (d : ℝ) (hd : 0 ≤ d) (n : Nat) :
    iterate RxnDfn.forward n { ca with dt := d } u =
      .ok (u, { ca with dt := d, t := ca.t + n * d }) := by
  obtain ⟨v, hv, hr⟩ := (rxn_still_iff hdt).1 ⟨_, h⟩
  exact rxn_rest_run hr n { ca with dt := d } hd hv

/-! ## The automata with other step controls -/

/-- C117: a `RandomStepCA` has the still lifes of the `CCA`, whatever it draws. -/
theorem random_still (draws : List ℝ) : ∀ (s : RandomStepCA ℝ ext int), 0 ≤ s.minDt →
    s.minDt ≤ s.maxDt → (∀ r ∈ draws, 0 ≤ r) → ∀ {u v : Univ ℝ N ext H W}, Unmasked s.ca.thr u →
    CcaRate s.ca u v → AtRest u v → ∃ s', randomRun s u draws = .ok (u, s') := by
  induction draws with
  | nil => intro s _ _ _ u v _ _ _; exact ⟨s, rfl⟩
  | cons r rs ih =>
    intro s h0 h1 hd u v hu hv hr
    obtain ⟨a, b, e1, e2, e3⟩ := hv
    have hpos : (0 : ℝ) ≤ r * (s.maxDt - s.minDt) + s.minDt :=
      add_nonneg (mul_nonneg (hd r (List.mem_cons_self ..)) (by linarith)) h0
    have hf : ∃ s1, s.forward r u = .ok (u, s1) ∧ s1.ca.thr = s.ca.thr ∧ s1.minDt = s.minDt ∧
        s1.maxDt = s.maxDt ∧ CcaRate s1.ca u v := by
      unfold RandomStepCA.forward
      simp only [maskIf_unmasked hu, e1, e2, e3, Bind.bind, Except.bind, pure, Except.pure]
      rw [eulerClamp_rest (by exact hpos) hr]
      exact ⟨_, rfl, rfl, rfl, rfl, a, b, e1, e2, e3⟩
    obtain ⟨s1, f1, f2, f3, f4, f5⟩ := hf
    obtain ⟨s', f6⟩ := ih s1 (by rw [f3]; exact h0) (by rw [f3, f4]; exact h1)
      (fun x hx => hd x (List.mem_cons_of_mem _ hx)) (by rw [f2]; exact hu) f5 hr
    refine ⟨s', ?_⟩
    show (do
      let (u', s') ← s.forward r u
      randomRun s' u' rs) = _
    rw [f1]
    exact f6

/-- C117: and only those: one call with a positive step that leaves a universe unchanged shows that
it is at rest. -/
theorem random_still_only {s s' : RandomStepCA ℝ ext int} {r : ℝ} {u : Univ ℝ N ext H W}
    (hu : Unmasked s.ca.thr u) (h0 : 0 < s.minDt) (h1 : s.minDt ≤ s.maxDt) (hr : 0 ≤ r)
    (h : s.forward r u = .ok (u, s')) : ∃ v, CcaRate s.ca u v ∧ AtRest u v := by
  obtain ⟨a, b, v, e1, e2, e3, e4⟩ := RandomStepCA.forward_ok h
  rw [maskIf_unmasked hu] at e1 e2 e4
  have hpos : (0 : ℝ) < add (mul r (sub s.maxDt s.minDt)) s.minDt :=
    add_pos_of_nonneg_of_pos (mul_nonneg hr (sub_nonneg.2 h1)) h0
  exact ⟨v, ⟨a, b, e1, e2, e3⟩, (eulerClamp_rest_iff hpos).1 (Prod.ext_iff.1 e4).1.symm⟩

theorem code_grid_rest {s : CODE ℝ ext int} {u v : Univ ℝ N ext H W} (hu : Unmasked s.ca.thr u)
    (hv : CcaRate s.ca u v) (hr : AtRest u v) {d : ℝ} (hd : 0 ≤ d) : s.getNewGrid d u = .ok u := by
  obtain ⟨a, b, e1, e2, e3⟩ := hv
  unfold CODE.getNewGrid
  simp only [maskIf_unmasked hu, e1, e2, e3, Bind.bind, Except.bind, pure, Except.pure]
  rw [eulerClamp_rest hd hr]

/-- C117: a `CODE` has the still lifes of the `CCA`; on one of them every call takes the largest step
it may, twice the one before up to the maximum. -/
theorem code_still {n : Nat} {s s' : CODE ℝ ext int} {u u' : Univ ℝ N ext H W}
    (h : CodeSteps n s u s' u') : ∀ (v : Univ ℝ N ext H W), StepReady s → Runnable s H W →
    0 < s.errThr → s.prevDt ≤ s.maxDt → Unmasked s.ca.thr u → CcaRate s.ca u v → AtRest u v →
    u' = u ∧ s'.prevDt = min (2 ^ n * s.prevDt) s.maxDt := by
  induction h with
  | zero s u => intro v _ _ _ hp _ _ _; simp [hp]
  | @succ n s u s1 u1 s'' u'' fuel hf _ ih =>
    intro v hr hrun he hp hu hv hrest
    obtain ⟨hg, hv1, hr', heq⟩ := code_step_unique s hr hrun u hf
    simp only at hg hv1 hr' heq
    obtain ⟨h0, h1, h2⟩ := hr
    have hmeets : ∀ d, 0 ≤ d → MeetsThreshold s u d := fun d hd => by
      refine ⟨u, u, u, code_grid_rest hu hv hrest hd, code_grid_rest hu hv hrest (by linarith),
        code_grid_rest hu hv hrest (by linarith), fun n c i j => ?_⟩
      simpa using he
    have hc : s.minDt ≤ min (2 * s.prevDt) s.maxDt := le_min h2 h1
    have hdt : s1.ca.dt = min (2 * s.prevDt) s.maxDt := by
      rcases hg.2.2.2 with ⟨j, hj, _, hno⟩ | ⟨_, hno⟩
      · rcases Nat.eq_zero_or_pos j with rfl | hj0
        · simpa using hj
        · exact absurd (hmeets _ (by rw [pow_zero, mul_one]; linarith)) (hno 0 hj0)
      · exact absurd (hmeets _ (by rw [pow_zero, mul_one]; linarith)) (hno 0 (by simpa using hc))
    have hu1 : u1 = u := by
      rw [code_grid_rest hu hv hrest (by rw [hdt]; linarith)] at hv1
      cases hv1; rfl
    subst hu1
    have hprev : s1.prevDt = min (2 * s.prevDt) s.maxDt := by rw [heq, ← hdt]
    have hmax : s1.maxDt = s.maxDt := by rw [heq]
    obtain ⟨a1, a2⟩ := ih v hr' (by rw [heq]; exact hrun) (by rw [heq]; exact he)
      (by rw [hprev, hmax]; exact min_le_right _ _) (by rw [heq]; exact hu) (by rw [heq]; exact hv)
      hrest
    refine ⟨a1, ?_⟩
    rw [a2, hprev, hmax]
    have hmx : 0 < s.maxDt := lt_of_lt_of_le h0 h1
    have hpow : (1 : ℝ) ≤ 2 ^ n := one_le_pow₀ (by norm_num)
    rcases le_total (2 * s.prevDt) s.maxDt with hle | hle
    · rw [min_eq_left hle, pow_succ]
      congr 1
      ring
    · rw [min_eq_right hle, min_eq_right (by nlinarith), min_eq_right]
      rw [pow_succ]
      nlinarith

/-- C117: a `MetaCA` without momentum, or with a momentum that moves no cell, also stays where a
`CCA` would, for ever. -/
theorem meta_still (n : Nat) : ∀ (s : MetaCA ℝ ext int) {u v : Univ ℝ N ext H W}, 0 ≤ s.ca.dt →
    0 ≤ s.ddt → Unmasked s.ca.thr u → CcaRate s.ca u v → AtRest u v →
    AtRest u (Momentum.forShape s.dgrid N H W) → ∃ s', iterate MetaCA.forward n s u = .ok (u, s') := by
  induction n with
  | zero => intro s u v _ _ _ _ _ _; exact ⟨s, rfl⟩
  | succ n ih =>
    intro s u v h0 h1 hu hv hr hm
    obtain ⟨a, b, e1, e2, e3⟩ := hv
    have hm' : AtRest u (fun n c i j => add (Momentum.forShape s.dgrid N H W n c i j)
        (mul s.ddt (v n c i j)) : Univ ℝ N ext H W) := fun n c i j => by
      obtain ⟨p, p1, p2⟩ := hr n c i j
      obtain ⟨_, q1, q2⟩ := hm n c i j
      exact ⟨p, fun hx => add_nonpos (q1 hx) (mul_nonpos_of_nonneg_of_nonpos h1 (p1 hx)),
        fun hx => add_nonneg (q2 hx) (mul_nonneg h1 (p2 hx))⟩
    have hf : s.forward u = .ok (u, { s with dgrid := some ⟨(N, H, W), (fun n c i j =>
        add (Momentum.forShape s.dgrid N H W n c i j) (mul s.ddt (v n c i j)) : Univ ℝ N ext H W)⟩ }) := by
      unfold MetaCA.forward
      simp only [maskIf_unmasked hu, e1, e2, e3, Bind.bind, Except.bind, pure, Except.pure]
      rw [eulerClamp_rest h0 hm']
    obtain ⟨s', hs'⟩ := ih { s with dgrid := some ⟨(N, H, W), (fun n c i j =>
        add (Momentum.forShape s.dgrid N H W n c i j) (mul s.ddt (v n c i j)) : Univ ℝ N ext H W)⟩ }
      h0 h1 hu ⟨a, b, e1, e2, e3⟩ hr (by simpa [Momentum.forShape] using hm')
    refine ⟨s', ?_⟩
    show (do
      let (b', s') ← s.forward u
      iterate MetaCA.forward n s' b') = _
    rw [hf]
    exact hs'

/-- C117: in particular after a reset. -/
theorem meta_still_reset (n : Nat) (s : MetaCA ℝ ext int) {u v : Univ ℝ N ext H W} (h0 : 0 ≤ s.ca.dt)
    (h1 : 0 ≤ s.ddt) (hu : Unmasked s.ca.thr u) (hv : CcaRate s.ca u v) (hr : AtRest u v) :
    ∃ s', iterate MetaCA.forward n s.reset u = .ok (u, s') :=
  meta_still n s.reset h0 h1 hu hv hr fun n c i j =>
    ⟨(hr n c i j).1, fun _ => le_refl (0 : ℝ), fun _ => le_refl (0 : ℝ)⟩

/-! ## In closed form, and in continuous time -/

section

variable {d : CCADyn} {M L : ℝ}

theorem plain_rate (p : Plain d) (t : ℝ) (u : Univ ℝ N d.ext H W) (hH : 1 ≤ H ∧ d.nbLayer.1 ≤ H)
    (hW : 1 ≤ W ∧ d.nbLayer.1 ≤ W) : CcaRate (d.toCCA t) u (growthOf p u) :=
  ⟨_, _, plain_identity p t u hH.1 hW.1, plain_neighborhood p t u hH.2 hW.2, plain_update p t u⟩

/-- C117: the still lifes in closed form: wherever there is room the growth is not positive, wherever
there is something it is not negative. -/
theorem still_growth_iff (p : Plain d) (hch : d.ext < 4) (hdt : 0 < d.dt) (t : ℝ)
    (u : Univ ℝ N d.ext H W) (hH : 1 ≤ H ∧ d.nbLayer.1 ≤ H) (hW : 1 ≤ W ∧ d.nbLayer.1 ≤ W) :
    (∃ s, (d.toCCA t).forward u = .ok (u, s)) ↔ ∀ n e i j, (0 ≤ u n e i j ∧ u n e i j ≤ 1) ∧
      (u n e i j < 1 → growth p (u n) i j ≤ 0) ∧ (0 < u n e i j → 0 ≤ growth p (u n) i j) := by
  rw [cca_still_iff (ca := d.toCCA t) hdt fun h => absurd h (by omega)]
  constructor
  · rintro ⟨v, hv, hr⟩
    rw [ccaRate_unique hv (plain_rate p t u hH hW)] at hr
    exact hr
  · intro hr
    exact ⟨_, plain_rate p t u hH hW, hr⟩

end

section

variable {C : Nat} {F : Univ ℝ N C H W → Univ ℝ N C H W} {M c : ℝ}

theorem eulerRun_rest {u : Univ ℝ N C H W} (hr : AtRest u (F u)) (hs : List ℝ) :
    (∀ h ∈ hs, 0 < h) → eulerRun F hs u = u := by
  induction hs with
  | nil => intro _; rfl
  | cons h hs ih =>
    intro hp
    have : eulerStep F h u = u := by
      funext n e i j
      exact (clip_rest_iff (hp h (List.mem_cons_self ..))).2 (hr n e i j)
    rw [eulerRun, this]
    exact ih fun x hx => hp x (List.mem_cons_of_mem _ hx)

/-- A universe is at rest exactly if the trajectory in continuous time that starts from it stays. -/
theorem flow_rest_iff (hF : Tame F M c) {u : Univ ℝ N C H W} (hu : Within01 u) :
    AtRest u (F u) ↔ ∀ T > 0, flow F T u = u := by
  constructor
  · intro hr T hT
    funext n e i j
    have h1 := flow_tendsto hF hT hu n e i j
    have h2 : ∀ k, eulerRun F (equalSteps T k) u n e i j = u n e i j := fun k => by
      rw [eulerRun_rest hr _ (equalSteps_pos hT k)]
    simp only [h2] at h1
    exact tendsto_nhds_unique h1 tendsto_const_nhds
  · intro h n e i j
    have hui := hu n e i j
    obtain ⟨hM, hc⟩ := hF.nonneg
    have near : ∀ h' : ℝ, 0 < h' → h' ≤ 1 →
        |clip (u n e i j + h' * F u n e i j) - u n e i j| ≤ c * M * Real.exp c / 2 * h' ^ 2 := by
      intro h' h0 h1
      have := flow_near hF (P := [h']) (by simpa using h0) (by simpa using h0) hu n e i j
      simp only [List.sum_cons, List.sum_nil, add_zero, h h' h0, stepSquares, List.map_cons,
        List.map_nil] at this
      refine this.trans ?_
      have he : Real.exp (c * h') ≤ Real.exp c := Real.exp_le_exp.2 (by nlinarith)
      have : c * M * Real.exp (c * h') / 2 ≤ c * M * Real.exp c / 2 := by
        have : 0 ≤ c * M := mul_nonneg hc hM
        nlinarith
      exact mul_le_mul_of_nonneg_right this (by positivity)
    set K := c * M * Real.exp c / 2 with hK
    have hK0 : 0 ≤ K := by have := Real.exp_pos c; positivity
    refine ⟨hui, fun hx => ?_, fun hx => ?_⟩
    · by_contra hg
      push Not at hg
      set g := F u n e i j with hgdef
      set x := u n e i j with hxdef
      -- a step so small that the cell stays inside and the error is smaller than the move
      set h' := min 1 (min ((1 - x) / g) (g / (K + 1) / 2)) with hh'
      have h0 : 0 < h' := lt_min one_pos (lt_min (div_pos (by linarith) hg) (by positivity))
      have h1 : h' ≤ 1 := min_le_left _ _
      have h2 : h' * g ≤ 1 - x := by
        rw [← le_div_iff₀ hg]
        exact (min_le_right _ _).trans (min_le_left _ _)
      have h3 : h' * (K + 1) < g := by
        have : h' ≤ g / (K + 1) / 2 := (min_le_right _ _).trans (min_le_right _ _)
        have hk : (0 : ℝ) < K + 1 := by linarith
        calc h' * (K + 1) ≤ g / (K + 1) / 2 * (K + 1) := mul_le_mul_of_nonneg_right this hk.le
          _ = g / 2 := by field_simp
          _ < g := by linarith
      have h4 := near h' h0 h1
      have hmul := mul_pos h0 hg
      rw [clip_eq (by linarith [hui.1]) (by linarith), add_sub_cancel_left, abs_of_pos hmul] at h4
      nlinarith
    · by_contra hg
      push Not at hg
      set g := F u n e i j with hgdef
      set x := u n e i j with hxdef
      have hg' : 0 < -g := by linarith
      set h' := min 1 (min (x / (-g)) (-g / (K + 1) / 2)) with hh'
      have h0 : 0 < h' := lt_min one_pos (lt_min (div_pos hx hg') (by positivity))
      have h1 : h' ≤ 1 := min_le_left _ _
      have h2 : h' * (-g) ≤ x := by
        rw [← le_div_iff₀ hg']
        exact (min_le_right _ _).trans (min_le_left _ _)
      have h3 : h' * (K + 1) < -g := by
        have : h' ≤ -g / (K + 1) / 2 := (min_le_right _ _).trans (min_le_right _ _)
        have hk : (0 : ℝ) < K + 1 := by linarith
        calc h' * (K + 1) ≤ -g / (K + 1) / 2 * (K + 1) := mul_le_mul_of_nonneg_right this hk.le
          _ = -g / 2 := by field_simp
          _ < -g := by linarith
      have h4 := near h' h0 h1
      have hmul := mul_pos h0 hg'
      rw [clip_eq (by linarith) (by nlinarith [hui.2]), add_sub_cancel_left,
        abs_of_neg (by linarith)] at h4
      nlinarith

end

/-- C117: the still lifes of a mild automaton are the universes its trajectory in continuous time
never leaves. -/
theorem still_trajectory_iff {d : CCADyn} {M L : ℝ} (p : Plain d) (m : Mild d M L) (hdt : 0 < d.dt)
    (t : ℝ) {u : Univ ℝ N d.ext H W} (hu : Within01 u) (hH : 1 ≤ H ∧ d.nbLayer.1 ≤ H)
    (hW : 1 ≤ W ∧ d.nbLayer.1 ≤ W) :
    (∃ s, (d.toCCA t).forward u = .ok (u, s)) ↔ ∀ T > 0, flow (growthOf p) T u = u := by
  rw [still_growth_iff p m.channels hdt t u hH hW, ← flow_rest_iff (growth_tame p m) hu]
  rfl

/-! ## Universes of one level -/

namespace Spec

/-- Every cell of every channel has the value `x`. -/
def level (N C H W : Nat) (x : ℝ) : Univ ℝ N C H W := fun _ _ _ _ => x

/-- The rate at which a universe of level `x` changes. -/
noncomputable def levelRate {d : CCADyn} (p : Plain d) (x : ℝ) : ℝ :=
  1 / (d.ext * d.int) * ∑ o : Fin d.int,
    ((1 - x) * (d.genesis.get (Fin.cast p.gen.symm o)).eval ((∑ a, ∑ b, d.nbLayer.2 a b) * x) +
      x * (d.persistence.get (Fin.cast p.per.symm o)).eval ((∑ a, ∑ b, d.nbLayer.2 a b) * x))

end Spec

section

variable {d : CCADyn} {M L : ℝ}

theorem growthOf_level (p : Plain d) (x : ℝ) :
    growthOf p (level N d.ext H W x) = level N d.ext H W (levelRate p x) := by
  funext n e i j
  show growth p _ i j = levelRate p x
  unfold growth levelRate level
  simp only [gathered_level]

theorem act_continuous {a : Act ℝ} (ha : Sound a) : Continuous a.eval := by
  rw [continuous_iff_continuousAt]
  intro y
  have h := act_tends (l := nhds y) (a := fun _ : ℝ => a) ha
    (fun _ => (List.forall₂_cons.1 (forall₂_self [a])).1)
    ⟨fun _ => rfl, fun k => tendsto_const_nhds⟩
  exact h (fun x => x) y Filter.tendsto_id

theorem levelRate_continuous (p : Plain d) (hs : ∀ a ∈ d.genesis ++ d.persistence, Sound a) :
    Continuous (levelRate p) := by
  unfold levelRate
  refine continuous_const.mul (continuous_finsetSum _ fun o _ => ?_)
  have hg := act_continuous (hs _ (List.mem_append_left _ (List.get_mem d.genesis
    (Fin.cast p.gen.symm o))))
  have hp := act_continuous (hs _ (List.mem_append_right _ (List.get_mem d.persistence
    (Fin.cast p.per.symm o))))
  exact ((continuous_const.sub continuous_id).mul (hg.comp (continuous_const.mul continuous_id))).add
    (continuous_id.mul (hp.comp (continuous_const.mul continuous_id)))

/-- C117: every automaton has a still life in which all cells are equal. -/
theorem level_still (p : Plain d) (hch : d.ext < 4) (hdt : 0 < d.dt)
    (hs : ∀ a ∈ d.genesis ++ d.persistence, Sound a) :
    ∃ x, 0 ≤ x ∧ x ≤ 1 ∧ ∀ {N H W : Nat} (t : ℝ), 1 ≤ H ∧ d.nbLayer.1 ≤ H →
      1 ≤ W ∧ d.nbLayer.1 ≤ W →
      ∃ s, (d.toCCA t).forward (level N d.ext H W x) = .ok (level N d.ext H W x, s) := by
  have key : ∀ x, 0 ≤ x → x ≤ 1 → (x < 1 → levelRate p x ≤ 0) → (0 < x → 0 ≤ levelRate p x) →
      ∀ {N H W : Nat} (t : ℝ), 1 ≤ H ∧ d.nbLayer.1 ≤ H → 1 ≤ W ∧ d.nbLayer.1 ≤ W →
      ∃ s, (d.toCCA t).forward (level N d.ext H W x) = .ok (level N d.ext H W x, s) := by
    intro x h0 h1 h2 h3 N H W t hH hW
    refine (still_growth_iff p hch hdt t _ hH hW).2 fun n e i j => ?_
    have := congrFun (congrFun (congrFun (congrFun (growthOf_level (N := N) (H := H) (W := W) p x)
      n) e) i) j
    have hg : growth p (level N d.ext H W x n) i j = levelRate p x := this
    rw [hg]
    exact ⟨⟨h0, h1⟩, h2, h3⟩
  have hc := levelRate_continuous p hs
  rcases le_or_gt (levelRate p 0) 0 with h0 | h0
  · exact ⟨0, le_refl _, zero_le_one, key 0 le_rfl zero_le_one (fun _ => h0)
      fun h => absurd h (lt_irrefl _)⟩
  rcases le_or_gt 0 (levelRate p 1) with h1 | h1
  · exact ⟨1, zero_le_one, le_refl _, key 1 zero_le_one le_rfl (fun h => absurd h (lt_irrefl _))
      fun _ => h1⟩
  obtain ⟨x, ⟨hx0, hx1⟩, hx⟩ := intermediate_value_Icc' zero_le_one hc.continuousOn
    (show (0 : ℝ) ∈ Set.Icc (levelRate p 1) (levelRate p 0) from ⟨h1.le, h0.le⟩)
  exact ⟨x, hx0, hx1, key x hx0 hx1 (fun _ => hx.le) fun _ => hx.ge⟩

theorem levelRate_lip (p : Plain d) (m : Mild d M L) {x y : ℝ} (hx : 0 ≤ x ∧ x ≤ 1)
    (hy : 0 ≤ y ∧ y ≤ 1) : |levelRate p x - levelRate p y| ≤ (2 * M + L) / d.ext * |x - y| := by
  have h := (growth_tame (N := 1) (H := 1) (W := 1) p m).lip |x - y| (level 1 d.ext 1 1 x)
    (level 1 d.ext 1 1 y) (fun _ _ _ _ => hx) (fun _ _ _ _ => hy) (fun _ _ _ _ => le_refl _)
  rw [growthOf_level, growthOf_level] at h
  exact h 0 ⟨0, p.ext_pos⟩ 0 0

/-- C117: with steps that are small compared with the slopes of the growth functions, a universe of
one level rises or sinks for ever, and tends to a still life. -/
theorem level_tends (p : Plain d) (m : Mild d M L) (hdt : 0 < d.dt)
    (hsmall : d.dt * ((2 * M + L) / d.ext) ≤ 1) {x : ℝ} (hx : 0 ≤ x ∧ x ≤ 1) :
    ∃ (f : ℕ → ℝ) (y : ℝ), (Monotone f ∨ Antitone f) ∧ Filter.Tendsto f Filter.atTop (nhds y) ∧
      (0 ≤ y ∧ y ≤ 1) ∧ ∀ {N H W : Nat} (t : ℝ), 1 ≤ H ∧ d.nbLayer.1 ≤ H →
      1 ≤ W ∧ d.nbLayer.1 ≤ W →
      (∀ n, iterate CCA.forward n (d.toCCA t) (level N d.ext H W x) =
        .ok (level N d.ext H W (f n), d.toCCA (t + n * d.dt))) ∧
      ∃ s, (d.toCCA t).forward (level N d.ext H W y) = .ok (level N d.ext H W y, s) := by
  set φ : ℝ → ℝ := fun x => clip (x + d.dt * levelRate p x) with hφ
  have hmem : ∀ z, 0 ≤ φ z ∧ φ z ≤ 1 := fun z => clip_mem _
  have clip_mono : Monotone clip := fun a b h => max_le_max le_rfl (min_le_min le_rfl h)
  have hmono : ∀ a b, 0 ≤ a ∧ a ≤ 1 → 0 ≤ b ∧ b ≤ 1 → a ≤ b → φ a ≤ φ b := by
    intro a b ha hb hab
    refine clip_mono ?_
    have h1 := levelRate_lip p m ha hb
    have h2 := (abs_le.1 h1).2
    have h3 : |a - b| = b - a := by rw [abs_sub_comm, abs_of_nonneg (by linarith)]
    rw [h3] at h2
    have h4 : d.dt * (levelRate p a - levelRate p b) ≤ b - a := by
      calc _ ≤ d.dt * ((2 * M + L) / d.ext * (b - a)) := mul_le_mul_of_nonneg_left h2 hdt.le
        _ = d.dt * ((2 * M + L) / d.ext) * (b - a) := by ring
        _ ≤ 1 * (b - a) := mul_le_mul_of_nonneg_right hsmall (by linarith)
        _ = _ := one_mul _
    linarith
  have hfmem : ∀ n, 0 ≤ φ^[n] x ∧ φ^[n] x ≤ 1 := by
    intro n
    cases n with
    | zero => exact hx
    | succ n => rw [Function.iterate_succ_apply']; exact hmem _
  have hcont : ContinuousOn φ (Set.Icc 0 1) := by
    have hl : ContinuousOn (levelRate p) (Set.Icc 0 1) := by
      have : LipschitzOnWith (Real.toNNReal ((2 * M + L) / d.ext)) (levelRate p) (Set.Icc 0 1) := by
        refine LipschitzOnWith.of_dist_le_mul fun a ha b hb => ?_
        rw [Real.dist_eq, Real.dist_eq, Real.coe_toNNReal _ (by
          obtain ⟨_, _⟩ := m.nonneg; positivity)]
        exact levelRate_lip p m ha hb
      exact this.continuousOn
    have hc : Continuous clip := continuous_const.max (continuous_const.min continuous_id)
    exact hc.comp_continuousOn (continuousOn_id.add (continuousOn_const.mul hl))
  have hord : (Monotone fun n => φ^[n] x) ∨ Antitone fun n => φ^[n] x := by
    rcases le_total x (φ x) with h | h
    · left
      refine monotone_nat_of_le_succ fun n => ?_
      induction n with
      | zero => exact h
      | succ n ih =>
        simp only [Function.iterate_succ_apply'] at ih ⊢
        exact hmono _ _ (hfmem n) (hmem _) ih
    · right
      refine antitone_nat_of_succ_le fun n => ?_
      induction n with
      | zero => exact h
      | succ n ih =>
        simp only [Function.iterate_succ_apply'] at ih ⊢
        exact hmono _ _ (hmem _) (hfmem n) ih
  obtain ⟨y, hy⟩ : ∃ y, Filter.Tendsto (fun n => φ^[n] x) Filter.atTop (nhds y) := by
    rcases hord with h | h
    · exact ⟨_, tendsto_atTop_ciSup h ⟨1, by rintro _ ⟨n, rfl⟩; exact (hfmem n).2⟩⟩
    · exact ⟨_, tendsto_atTop_ciInf h ⟨0, by rintro _ ⟨n, rfl⟩; exact (hfmem n).1⟩⟩
  have hym : 0 ≤ y ∧ y ≤ 1 :=
    ⟨ge_of_tendsto' hy fun n => (hfmem n).1, le_of_tendsto' hy fun n => (hfmem n).2⟩
  have hfix : φ y = y := by
    have h1 : Filter.Tendsto (fun n => φ (φ^[n] x)) Filter.atTop (nhds (φ y)) :=
      (hcont y hym).tendsto.comp (tendsto_nhdsWithin_iff.2 ⟨hy, Filter.Eventually.of_forall hfmem⟩)
    have h2 := (Filter.tendsto_add_atTop_iff_nat 1).2 hy
    simp only [Function.iterate_succ_apply'] at h2
    exact tendsto_nhds_unique h1 h2
  refine ⟨fun n => φ^[n] x, y, hord, hy, hym, fun {N H W} t hH hW => ⟨fun n => ?_, ?_⟩⟩
  · rw [cca_steps p m.channels n t _ hH hW]
    congr 2
    have gen : ∀ (n : ℕ) (z : ℝ), eulerRun (growthOf p) (List.replicate n d.dt)
        (level N d.ext H W z) = level N d.ext H W (φ^[n] z) := by
      intro n
      induction n with
      | zero => intro z; rfl
      | succ n ih =>
        intro z
        rw [List.replicate_succ, eulerRun, Function.iterate_succ_apply, ← ih]
        congr 1
        unfold eulerStep
        rw [growthOf_level]
        rfl
    exact gen n x
  · refine (still_growth_iff p m.channels hdt t _ hH hW).2 fun n e i j => ?_
    have := congrFun (congrFun (congrFun (congrFun (growthOf_level (N := N) (H := H) (W := W) p y)
      n) e) i) j
    have hg : growth p (level N d.ext H W y n) i j = levelRate p y := this
    rw [hg]
    exact (clip_rest_iff hdt).1 hfix

end

/-! ## With four channels the alive mask makes the still lifes depend on the step -/

theorem rising_dt_step (c t h : ℝ) (w : Univ ℝ 1 4 3 3) :
    ∃ w' : Univ ℝ 1 4 3 3, CCA.forward (ext := 4) (int := 4)
        ({ Witness.rising c with dt := h }.toCCA t) w =
        .ok (w', { Witness.rising c with dt := h }.toCCA (t + h)) ∧
      ∀ n e i j, w' n e i j = clip (alive 0.5 w n e i j + h * (c / 4)) := by
  have q := plain_dt (Witness.rising_plain c) h
  obtain ⟨w', h1, h2⟩ := cca_rule { Witness.rising c with dt := h } t rfl rfl rfl q.ext_pos
    q.dvd q.gen q.per w
    (⟨by decide, Nat.one_le_ofNat⟩ : 1 ≤ 3 ∧ 1 ≤ 3) (⟨by decide, Nat.one_le_ofNat⟩ : 1 ≤ 3 ∧ 1 ≤ 3)
  refine ⟨w', h1, fun n e i j => ?_⟩
  have h3 := h2 n e i j
  have h4 := constant_growth q (Nat.succ_ne_zero 3) (c := c) (by
    intro a ha y
    have : a = .polynomial [c] false := by
      rcases List.mem_append.1 ha with h | h <;> exact List.eq_of_mem_replicate h
    rw [this]
    simp [Act.eval, polynomialFn]) (alive 0.5 w n) i j
  unfold growth at h4
  simp only at h3
  rw [h3]
  refine congrArg clip ?_
  refine (congrArg (fun z => alive 0.5 w n e i j + h * z) h4).trans ?_
  show _ + h * (c / ((4 : Nat) : ℝ)) = _
  norm_num

/-- C117, exception: with four channels, where the mask empties cells, a universe can be still with
one step size and not with another. -/
theorem still_mask_refuted : ∃ (u : Univ ℝ 1 4 3 3) (s : CCA ℝ 4 4), Within01 u ∧
    CCA.forward (ext := 4) (int := 4) ({ Witness.rising 1 with dt := 1 }.toCCA 0) u = .ok (u, s) ∧
    ∀ s', CCA.forward (ext := 4) (int := 4) ({ Witness.rising 1 with dt := 2 }.toCCA 0) u ≠
      .ok (u, s') := by
  have hal : ∀ n e i j, alive 0.5 (fun _ _ _ _ => 1 / 4 : Univ ℝ 1 4 3 3) n e i j = 0 := by
    intro n e i j
    unfold alive
    rw [dif_pos (by norm_num), if_neg (by norm_num)]
  obtain ⟨w, h1, h2⟩ := rising_dt_step 1 0 1 (fun _ _ _ _ => 1 / 4)
  obtain ⟨w', h1', h2'⟩ := rising_dt_step 1 0 2 (fun _ _ _ _ => 1 / 4)
  refine ⟨fun _ _ _ _ => 1 / 4, { Witness.rising 1 with dt := 1 }.toCCA (0 + 1),
    fun _ _ _ _ => by norm_num, ?_, fun s' hs' => ?_⟩
  · rw [h1]
    congr 2
    funext n e i j
    rw [h2, hal, clip_eq] <;> norm_num
  · rw [h1'] at hs'
    have hw : w' = fun _ _ _ _ => 1 / 4 := by
      injection hs' with hs'
      exact (Prod.ext_iff.1 hs').1
    have := h2' 0 0 0 0
    rw [hw, hal, clip_eq (by norm_num) (by norm_num)] at this
    norm_num at this

/-- The hypotheses can be met: full rows between empty ones are a still life of an automaton in which
every cell grows as much as there is to its right. -/
example : ∃ s, (Witness.twoFour.toCCA 0).forward
    (fun _ _ i _ => if i = 0 then 1 else 0 : Univ ℝ 1 2 3 3) =
      .ok (fun _ _ i _ => if i = 0 then 1 else 0, s) := by
  refine (still_growth_iff Witness.twoFour_plain (by norm_num [Witness.twoFour])
    (by norm_num [Witness.twoFour]) 0 _ (by decide : 1 ≤ 3 ∧ 1 ≤ 3)
    (by decide : 1 ≤ 3 ∧ 1 ≤ 3)).2 fun n e i j => ?_
  have hgath : ∀ i j : Fin 3, gathered Witness.twoFour.nbLayer.2
      (fun i _ => if i = 0 then 1 else 0 : Grid ℝ 3 3) i j = if i = 0 then 1 else 0 := by
    intro i j
    show ∑ a : Fin 3, ∑ b : Fin 3, (if a = 1 ∧ b = 2 then (1 : ℝ) else 0) *
      (if rollIdx i (((1 : Nat) : Int) - a.val) = 0 then 1 else 0) = _
    have h0 : rollIdx i 0 = i := by revert i; decide
    simp only [Fin.sum_univ_three]
    norm_num [h0]
    rw [if_neg (by decide : ¬ (0 : Fin 3) = 2), if_neg (by decide : ¬ (1 : Fin 3) = 2),
      if_neg (by decide : ¬ ((2 : Fin 3) = 1 ∧ (0 : Fin 3) = 2)),
      if_neg (by decide : ¬ ((2 : Fin 3) = 1 ∧ (1 : Fin 3) = 2)),
      if_neg (by decide : ¬ (2 : Fin 3) = 1)]
    simp
  have hid : ∀ (l : List (Act ℝ)) (o : Fin l.length), (∀ a ∈ l, a = .identity) → ∀ y,
      (l.get o).eval y = y := fun l o hl y => by rw [hl _ (List.get_mem _ _)]; rfl
  have hg : growth Witness.twoFour_plain (fun _ i _ => if i = 0 then 1 else 0 : Fin 2 → Grid ℝ 3 3)
      i j = if i = 0 then 1 / 2 else 0 := by
    unfold growth
    have h1 : ∀ o y, (Witness.twoFour.genesis.get o).eval y = y :=
      fun o => hid _ o fun a ha => List.eq_of_mem_replicate ha
    have h2 : ∀ o y, (Witness.twoFour.persistence.get o).eval y = y :=
      fun o => hid _ o fun a ha => List.eq_of_mem_replicate ha
    simp only [h1, h2, hgath]
    show 1 / (((2 : Nat) : ℝ) * ((4 : Nat) : ℝ)) * ∑ o : Fin 4, _ = _
    by_cases hi : i = 0
    · simp only [hi, if_true]; norm_num
    · simp only [hi, if_false]; norm_num
  rw [show growth Witness.twoFour_plain _ i j = _ from hg]
  by_cases hi : i = 0
  · simp only [hi, if_true]; norm_num
  · simp only [hi, if_false]; norm_num

/-- So can those of the others: mild, with steps that are small enough. -/
example : Mild Witness.twoFour 1 1 ∧ 0 < Witness.twoFour.dt ∧
    Witness.twoFour.dt * ((2 * 1 + 1) / Witness.twoFour.ext) ≤ 1 ∧
    ∀ a ∈ Witness.twoFour.genesis ++ Witness.twoFour.persistence, Sound a := by
  refine ⟨Witness.twoFour_mild, ?_, ?_, ?_⟩
  · norm_num [Witness.twoFour]
  · norm_num [Witness.twoFour]
  · intro a ha
    have : a = .identity := by
      rcases List.mem_append.1 ha with h | h <;> exact List.eq_of_mem_replicate h
    rw [this]
    trivial

end Yuca
