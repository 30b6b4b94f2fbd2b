import Verif.Props.Locality
import Verif.Spec.Time
import Verif.Lemmas.ConvReal
import Mathlib.Tactic.NormNum

/-!
# C04 get_frame, C05 simulated time, C06 alive mask, C08 identity layer, C15 shapes
-/

namespace Yuca

open Arith Spec

variable {α : Type} [Arith α] {ext int N H W : Nat}

/-! ## C15: when a step returns, and shapes -/

/-- Whether a layer accepts an input of this size. -/
def Fits (L : ConvLayer α ext int) (H W : Nat) : Prop :=
  L.k % 2 = 1 ∧ padOK L.mode L.pad H ∧ padOK L.mode L.pad W

omit [Arith α] in
theorem perChannel_ok_iff (fns : List (α → α)) (x : Univ α N int H W) :
    (∃ y, perChannel fns x = .ok y) ↔ fns.length = int := by
  unfold perChannel
  split
  · simp [*]
  · simp [*]

theorem apply_ok_iff (L : ConvLayer α ext int) (u : Univ α N ext H W) :
    (∃ y, L.apply u = .ok y) ↔ Fits L H W := by
  unfold ConvLayer.apply Fits
  split <;> simp [*]

/-- C15 (and a complement to C03): whether `CCA.forward` returns depends only on the kernel
sides, the padding against the grid size and the number of growth functions, never on cell
values. -/
theorem cca_runs_iff (ca : CCA α ext int) (u : Univ α N ext H W) :
    (∃ r, ca.forward u = .ok r) ↔
      Fits ca.idL H W ∧ Fits ca.nbL H W ∧ ca.genesis.length = int ∧
        ca.persistence.length = int := by
  constructor
  · rintro ⟨r, h⟩
    obtain ⟨idn, nb, upd, h1, h2, h3, _⟩ := CCA.forward_ok h
    obtain ⟨g, h4, h5⟩ := bind_ok h3
    obtain ⟨p, h6, _⟩ := bind_ok h5
    exact ⟨(apply_ok_iff _ _).1 ⟨_, h1⟩, (apply_ok_iff _ _).1 ⟨_, h2⟩,
      (perChannel_ok_iff _ _).1 ⟨_, h4⟩, (perChannel_ok_iff _ _).1 ⟨_, h6⟩⟩
  · rintro ⟨h1, h2, h3, h4⟩
    obtain ⟨idn, h1⟩ := (apply_ok_iff ca.idL (maskIf ca.thr u)).2 h1
    obtain ⟨nb, h2⟩ := (apply_ok_iff ca.nbL (maskIf ca.thr u)).2 h2
    obtain ⟨g, h3⟩ := (perChannel_ok_iff ca.genesis nb).2 h3
    obtain ⟨p, h4⟩ := (perChannel_ok_iff ca.persistence nb).2 h4
    simp only [CCA.forward, h1, h2, bind, Except.bind, CCA.updateUniverse, h3, h4]
    exact ⟨_, rfl⟩

example : Fits Witness.ca1.idL 3 3 ∧ Fits Witness.ca1.nbL 3 3 ∧
    Witness.ca1.genesis.length = 1 ∧ Witness.ca1.persistence.length = 1 := by
  simp only [Fits]; decide

/-- C15: the padding `(k-1)//2` keeps the side of a grid exactly for odd kernel sides. -/
theorem conv_keeps_side_iff (n k : Nat) (hk : 1 ≤ k) (hn : 1 ≤ n) :
    convAxis n k = .ok n ↔ k % 2 = 1 := by
  unfold convAxis outDim
  constructor
  · intro h
    split at h
    · cases h
    · simp only [Except.ok.injEq] at h; omega
  · intro h
    rw [if_neg (by omega)]
    congr 1; omega

example : convAxis 7 27 = .ok 7 ∧ convAxis 7 4 = .ok 6 := by decide

/-- C15 for a whole step, both kernels of either parity, with torch's broadcasting: for
axes of length at least 3 the step keeps the axis when both sides are odd and raises
otherwise. -/
theorem forward_shape (n kid knb : Nat) (hn : 3 ≤ n) (h1 : 1 ≤ kid) (h2 : 1 ≤ knb) :
    forwardAxis n kid knb =
      if kid % 2 = 1 ∧ knb % 2 = 1 then .ok n else .error .runtime := by
  have hc : ∀ k, 1 ≤ k → convAxis n k = .ok (if k % 2 = 1 then n else n - 1) := by
    intro k hk
    unfold convAxis outDim
    rw [if_neg (by omega)]
    congr 1; split <;> omega
  unfold forwardAxis
  rw [hc _ h1, hc _ h2]
  simp only [bind, Except.bind]
  by_cases a : kid % 2 = 1 <;> by_cases b : knb % 2 = 1 <;>
    simp only [a, b, if_true, if_false, and_true, and_false,
      broadcastAxis]
  · rw [if_neg (by omega), if_neg (by omega), if_neg (by omega)]
  · rw [if_neg (by omega), if_neg (by omega), if_neg (by omega)]
  · rw [if_neg (by omega), if_neg (by omega), if_neg (by omega)]

/-- The bound 3 is needed: on a 2-cell axis an even kernel produces one cell, which is
silently broadcast instead of raising. -/
theorem forward_shape_two_refuted : ∃ kid knb, 1 ≤ kid ∧ 1 ≤ knb ∧ knb % 2 = 0 ∧
    forwardAxis 2 kid knb = .ok 2 := ⟨2, 2, by decide⟩

/-! ## C04: get_frame -/

theorem maskIf_small (h : ext < 4) (thr : α) (u : Univ α N ext H W) : maskIf thr u = u := by
  unfold maskIf
  rw [dif_neg (by omega)]

/-- C04: below four channels, the universe in what `get_frame` returns is the universe
`forward` returns, in every mode from 0 to 4, and `get_frame` raises exactly when `forward`
does. -/
theorem cca_frame_eq_forward (ca : CCA α ext int) (u : Univ α N ext H W) (h : ext < 4)
    (mode : Int) (hm : 0 ≤ mode ∧ mode ≤ 4) :
    Frame.universe <$> ca.getFrame u mode = (fun r => some r.1) <$> ca.forward u := by
  unfold CCA.getFrame CCA.forward
  simp only [maskIf_small h]
  cases ca.idL.apply u with
  | error _ => rfl
  | ok idn =>
    cases ca.nbL.apply u with
    | error _ => rfl
    | ok nb =>
      simp only [bind, Except.bind]
      cases ca.updateUniverse idn nb with
      | error _ => rfl
      | ok upd =>
        simp only [pure, Except.pure, Functor.map, Except.map]
        congr 1
        have : mode = 0 ∨ mode = 1 ∨ mode = 2 ∨ mode = 3 ∨ mode = 4 := by omega
        rcases this with rfl | rfl | rfl | rfl | rfl <;> rfl

/-- C04: in mode 0 the result is the bare universe. -/
theorem cca_frame0_eq_forward (ca : CCA α ext int) (u : Univ α N ext H W) (h : ext < 4) :
    ca.getFrame u 0 = (fun r => Frame.new r.1) <$> ca.forward u := by
  unfold CCA.getFrame CCA.forward
  simp only [maskIf_small h]
  cases ca.idL.apply u with
  | error _ => rfl
  | ok idn =>
    cases ca.nbL.apply u with
    | error _ => rfl
    | ok nb =>
      simp only [bind, Except.bind]
      cases ca.updateUniverse idn nb <;> rfl

example : ∃ r, Witness.ca1.forward Witness.u3 = .ok r ∧ r.1 0 0 1 1 = 1/2 * (1/2 * 2 - 1/4) :=
  ⟨_, rfl, by decide +kernel⟩

/-- C04 for `Lenia`. -/
theorem lenia_frame_eq_forward (ca : CCA α ext int) (u : Univ α N ext H W) (h : ext < 4) :
    ca.leniaGetFrame0 u = Prod.fst <$> ca.leniaForward u := by
  unfold CCA.leniaGetFrame0 CCA.leniaForward
  simp only [maskIf_small h]
  cases ca.idL.apply u with
  | error _ => rfl
  | ok idn =>
    cases ca.nbL.apply u with
    | error _ => rfl
    | ok nb =>
      simp only [bind, Except.bind]
      cases ca.leniaUpdateUniverse nb <;> rfl

/-- C04 for `NCA` (evaluation mode, or any fixed dropout mask). -/
theorem nca_frame_eq_forward [Transc α] {hid : Nat} (ca : NCA α ext int hid)
    (drop : Option (Univ α N hid H W)) (u : Univ α N ext H W) (h : ext < 4) :
    ca.getFrame0 drop u = Prod.fst <$> ca.forward drop u := by
  unfold NCA.getFrame0 NCA.forward
  simp only [maskIf_small h]
  cases ca.idL.apply u with
  | error _ => rfl
  | ok idn =>
    cases ca.nbL.apply u with
    | error _ => rfl
    | ok nb =>
      simp only [bind, Except.bind]
      cases ca.updateUniverse drop idn nb <;> rfl

/-- C04 for `RxnDfn` (always two channels). -/
theorem rxn_frame_eq_forward (ca : RxnDfn α) (u : Univ α N 2 H W) :
    ca.getFrame0 u = Prod.fst <$> ca.forward u := by
  unfold RxnDfn.getFrame0 RxnDfn.forward
  cases ca.idL.apply u with
  | error _ => rfl
  | ok idn =>
    cases ca.nbL.apply u <;> rfl

example : (∃ r, Witness.rxn.forward Witness.u2 = .ok r) ∧
    (∃ r, Witness.ca1.leniaForward Witness.u3 = .ok r) ∧
    (∃ r, Witness.nca.forward none (fun _ _ _ _ => 1/2 : Univ ℝ 1 1 3 3) = .ok r) :=
  ⟨⟨_, rfl⟩, ⟨_, rfl⟩, ⟨_, rfl⟩⟩

/-- C04 fails with four channels: `forward` masks and `get_frame` does not. -/
theorem cca_frame_four_refuted : ∃ (ca : CCA ℚ 4 4) (u : Univ ℚ 1 4 3 3) (r : _)
    (v : Univ ℚ 1 4 3 3), ca.forward u = .ok r ∧ ca.getFrame u 0 = .ok (.new v) ∧ v ≠ r.1 := by
  refine ⟨Witness.ca4, Witness.u4, _, _, rfl, rfl, fun h => ?_⟩
  have := congrFun (congrFun (congrFun (congrFun h 0) 0) 1) 1
  revert this
  decide +kernel

/-- C04 fails for `MetaCA` even with one channel: `get_frame` ignores the momentum and its
step size `ddt`. -/
theorem meta_frame_refuted : ∃ (s : MetaCA ℚ 1 1) (u : Univ ℚ 1 1 3 3) (r : _)
    (v : Univ ℚ 1 1 3 3), s.forward u = .ok r ∧ s.getFrame0 u = .ok (.new v) ∧ v ≠ r.1 := by
  refine ⟨Witness.meta1, Witness.u3, _, _, rfl, rfl, fun h => ?_⟩
  have := congrFun (congrFun (congrFun (congrFun h 0) 0) 1) 1
  revert this
  decide +kernel

/-! ## C05: simulated time -/

/-- The laws a class must obey for its clock to be right: `forward` adds the step size it
leaves in `dt`; `set_dt` sets the step size and does not touch the time; `reset` zeroes it. -/
structure ClockLaws {σ β : Type} (K : Clock α σ β) : Prop where
  reset : ∀ s, K.t (K.reset s) = zero
  setDt : ∀ s d, K.t (K.setDt s d) = K.t s
  setDt_dt : ∀ s d, K.dt (K.setDt s d) = d
  forward : ∀ s b s', K.forward s b = some s' → K.t s' = add (K.t s) (K.dt s')

/-- Attach to each call of a history whether it returned and the step size shown after it. -/
def Clock.annotate {σ β : Type} (K : Clock α σ β) : σ → List (Op α β) → List (Op α β × Bool × α)
  | _, [] => []
  | s, .reset :: ops => (.reset, true, K.dt (K.reset s)) :: K.annotate (K.reset s) ops
  | s, .setDt d :: ops => (.setDt d, true, K.dt (K.setDt s d)) :: K.annotate (K.setDt s d) ops
  | s, .forward b :: ops =>
    match K.forward s b with
    | some s' => (.forward b, true, K.dt s') :: K.annotate s' ops
    | none => (.forward b, false, K.dt s) :: K.annotate s ops
  | s, .getFrame b :: ops => (.getFrame b, true, K.dt s) :: K.annotate s ops

theorem clock_time {σ β : Type} {K : Clock α σ β} (hK : ClockLaws K) (ops : List (Op α β)) :
    ∀ (s : σ) (acc : List α), K.t s = total acc →
      K.t (K.run s ops).1 = total (stepsSinceReset acc (K.annotate s ops)) := by
  induction ops with
  | nil => intro s acc h; exact h
  | cons o ops ih =>
    intro s acc h
    cases o with
    | reset => exact ih (K.reset s) [] (hK.reset s)
    | setDt d => exact ih (K.setDt s d) acc ((hK.setDt s d).trans h)
    | getFrame b => exact ih s acc h
    | forward b =>
      cases hf : K.forward s b with
      | none =>
        simp only [Clock.run, Clock.annotate, hf, stepsSinceReset]
        exact ih s acc h
      | some s' =>
        simp only [Clock.run, Clock.annotate, hf, stepsSinceReset]
        refine ih s' _ ?_
        rw [hK.forward s b s' hf, h]
        simp [total]

theorem afterCall_some {β σ : Type} {x : Except PyErr (β × σ)} {s : σ}
    (h : afterCall x = some s) : ∃ b, x = .ok (b, s) := by
  cases x with
  | error e => cases h
  | ok r => cases h; exact ⟨r.1, rfl⟩

theorem cca_clockLaws : ClockLaws (CCA.clock (α := α) ext int) where
  reset _ := rfl
  setDt _ _ := rfl
  setDt_dt _ _ := rfl
  forward s b s' h := by
    obtain ⟨v, h⟩ := afterCall_some h
    obtain ⟨_, _, _, _, _, _, h⟩ := CCA.forward_ok h
    cases h; rfl

theorem lenia_clockLaws : ClockLaws (CCA.leniaClock (α := α) ext int) where
  reset _ := rfl
  setDt _ _ := rfl
  setDt_dt _ _ := rfl
  forward s b s' h := by
    obtain ⟨v, h⟩ := afterCall_some h
    obtain ⟨_, _, _, _, _, _, h⟩ := CCA.leniaForward_ok h
    cases h; rfl

theorem nca_clockLaws [Transc α] {hid : Nat} : ClockLaws (NCA.clock (α := α) ext int hid) where
  reset _ := rfl
  setDt _ _ := rfl
  setDt_dt _ _ := rfl
  forward s b s' h := by
    obtain ⟨v, h⟩ := afterCall_some h
    obtain ⟨_, _, _, _, _, _, h⟩ := NCA.forward_ok h
    cases h; rfl

theorem rxn_clockLaws : ClockLaws (RxnDfn.clock (α := α)) where
  reset _ := rfl
  setDt _ _ := rfl
  setDt_dt _ _ := rfl
  forward s b s' h := by
    obtain ⟨v, h⟩ := afterCall_some h
    obtain ⟨_, _, _, _, h⟩ := RxnDfn.forward_ok h
    cases h; rfl

theorem randomStep_clockLaws : ClockLaws (RandomStepCA.clock (α := α) ext int) where
  reset _ := rfl
  setDt _ _ := rfl
  setDt_dt _ _ := rfl
  forward s b s' h := by
    obtain ⟨v, h⟩ := afterCall_some h
    obtain ⟨_, _, _, _, _, _, h⟩ := RandomStepCA.forward_ok h
    cases h; rfl

theorem code_clockLaws : ClockLaws (CODE.clock (α := α) ext int) where
  reset _ := rfl
  setDt _ _ := rfl
  setDt_dt _ _ := rfl
  forward s b s' h := by
    simp only [CODE.clock] at h
    cases hf : s.forward b.1 b.2.2 with
    | none => rw [hf] at h; cases h
    | some x =>
      rw [hf] at h
      obtain ⟨v, h⟩ := afterCall_some h
      subst h
      obtain ⟨_, _, _, _, h⟩ := CODE.forward_ok hf
      simp only at h
      subst h; rfl

/-- C05 for `CCA`: starting from `reset()`, after any history of calls `t_count` is the sum,
in call order, of the step sizes of the `forward` calls that returned since the last
`reset`. -/
theorem cca_time (s : CCA α ext int) (ops : List (Op α (AnyUniv α ext))) :
    ((CCA.clock ext int).run s.reset ops).1.t =
      total (stepsSinceReset [] ((CCA.clock ext int).annotate s.reset ops)) :=
  clock_time cca_clockLaws ops s.reset [] rfl

/-- C05 for `Lenia`. -/
theorem lenia_time (s : CCA α ext int) (ops : List (Op α (AnyUniv α ext))) :
    ((CCA.leniaClock ext int).run s.reset ops).1.t =
      total (stepsSinceReset [] ((CCA.leniaClock ext int).annotate s.reset ops)) :=
  clock_time lenia_clockLaws ops s.reset [] rfl

/-- C05 for `NCA`. -/
theorem nca_time [Transc α] {hid : Nat} (s : NCA α ext int hid)
    (ops : List (Op α (AnyUniv α ext))) :
    ((NCA.clock ext int hid).run { s with t := zero } ops).1.t =
      total (stepsSinceReset [] ((NCA.clock ext int hid).annotate { s with t := zero } ops)) :=
  clock_time nca_clockLaws ops _ [] rfl

/-- C05 for `RxnDfn`. -/
theorem rxn_time (s : RxnDfn α) (ops : List (Op α (AnyUniv α 2))) :
    (RxnDfn.clock.run { s with t := zero } ops).1.t =
      total (stepsSinceReset [] (RxnDfn.clock.annotate { s with t := zero } ops)) :=
  clock_time rxn_clockLaws ops _ [] rfl

/-- C05 for `RandomStepCA`. -/
theorem randomStep_time (s : RandomStepCA α ext int)
    (ops : List (Op α (α × AnyUniv α ext))) :
    ((RandomStepCA.clock ext int).run { s with ca := s.ca.reset } ops).1.ca.t =
      total (stepsSinceReset []
        ((RandomStepCA.clock ext int).annotate { s with ca := s.ca.reset } ops)) :=
  clock_time randomStep_clockLaws ops _ [] rfl

/-- C05 for `CODE`. -/
theorem code_time (s : CODE α ext int) (ops : List (Op α (Nat × AnyUniv α ext))) :
    ((CODE.clock ext int).run { s with ca := s.ca.reset } ops).1.ca.t =
      total (stepsSinceReset [] ((CODE.clock ext int).annotate { s with ca := s.ca.reset } ops)) :=
  clock_time code_clockLaws ops _ [] rfl

/-- A history with two different step sizes, a frame and a reset in the middle: only the
two steps after the reset count. -/
example :
    stepsSinceReset [] ((CCA.clock 1 1).annotate Witness.ca1.reset
      [.forward ⟨(1, 3, 3), Witness.u3⟩, .reset, .forward ⟨(1, 3, 3), Witness.u3⟩,
       .getFrame ⟨(1, 3, 3), Witness.u3⟩, .setDt (1/4), .forward ⟨(1, 3, 3), Witness.u3⟩]) =
      [1/2, 1/4] := by decide +kernel

/-- C05, constant step size, exact arithmetic: after `n` returning calls and no `set_dt` the
time is `n * dt`, whatever frames were drawn in between. -/
theorem cca_time_const (s : CCA ℝ ext int) (ops : List (Op ℝ (AnyUniv ℝ ext)))
    (hc : ConstantDt ops)
    (hret : ∀ b ∈ ((CCA.clock ext int).run s.reset ops).2, b = true) :
    ((CCA.clock ext int).run s.reset ops).1.t = countForward ops * s.dt := by
  have key : ∀ (ops : List (Op ℝ (AnyUniv ℝ ext))) (s : CCA ℝ ext int), ConstantDt ops →
      (∀ b ∈ ((CCA.clock ext int).run s ops).2, b = true) →
      ((CCA.clock ext int).run s ops).1.t = s.t + countForward ops * s.dt := by
    intro ops
    induction ops with
    | nil => intro s _ _; simp [Clock.run, countForward]
    | cons o ops ih =>
      intro s hc hret
      have hc' : ConstantDt ops := fun o ho => hc o (List.mem_cons_of_mem _ ho)
      rcases hc o List.mem_cons_self with ⟨b, rfl⟩ | ⟨b, rfl⟩
      · cases hf : (CCA.clock (α := ℝ) ext int).forward s b with
        | none =>
          simp only [Clock.run, hf] at hret
          exact absurd (hret false List.mem_cons_self) (by decide)
        | some s' =>
          simp only [Clock.run, hf] at hret ⊢
          rw [ih s' hc' (fun b hb => hret b (List.mem_cons_of_mem _ hb))]
          obtain ⟨v, h⟩ := afterCall_some hf
          obtain ⟨_, _, _, _, _, _, h⟩ := CCA.forward_ok h
          cases h
          simp only [countForward, Arith.add]
          push_cast; ring
      · simp only [Clock.run] at hret ⊢
        rw [ih s hc' (fun b hb => hret b (List.mem_cons_of_mem _ hb))]
        simp [countForward]
  have := key ops s.reset hc hret
  simpa [CCA.reset, Arith.zero] using this

/-- C05 does not hold for `MetaCA`: it never advances a clock. -/
theorem meta_no_time (s : MetaCA α ext int) (u : Univ α N ext H W)
    (r : Univ α N ext H W × MetaCA α ext int) (h : s.forward u = .ok r) :
    r.2.ca.t = s.ca.t := by
  obtain ⟨_, _, _, _, _, _, d, _, h⟩ := MetaCA.forward_ok h
  cases h; rfl

example : ∃ r, Witness.meta1.forward Witness.u3 = .ok r := ⟨_, rfl⟩

/-! ## C06: alive mask -/

/-- C06: for arithmetic in which `x * 1 = x` and `x * 0 = 0` on the cells at hand, the mask
zeroes all channels of exactly the cells whose alpha is not above the threshold and keeps
every other cell. -/
theorem mask_cell (thr : α) (h : 4 ≤ ext) (u : Univ α N ext H W)
    (h1 : ∀ n c i j, mul (u n c i j) one = u n c i j)
    (h0 : ∀ n c i j, mul (u n c i j) zero = zero) (n : Fin N) (c : Fin ext) (i : Fin H)
    (j : Fin W) :
    (lt thr (u n ⟨3, h⟩ i j) = true → aliveMask thr h u n c i j = u n c i j) ∧
    (lt thr (u n ⟨3, h⟩ i j) = false → aliveMask thr h u n c i j = zero) := by
  constructor <;> intro hl <;> simp [aliveMask, hl, h0, h1]

/-- C06 over the reals, as one statement about `alive_mask`. -/
theorem mask_real (thr : ℝ) (h : 4 ≤ ext) (u : Univ ℝ N ext H W) (n : Fin N) (c : Fin ext)
    (i : Fin H) (j : Fin W) :
    aliveMask thr h u n c i j = if thr < u n ⟨3, h⟩ i j then u n c i j else 0 := by
  have := mask_cell thr h u (fun _ _ _ _ => mul_one _) (fun _ _ _ _ => mul_zero _) n c i j
  split
  · exact this.1 (by simpa [Arith.lt])
  · exact this.2 (by simpa [Arith.lt] using not_lt.1 ‹_›)

/-- C06: masking twice is masking once, for any (also negative) threshold. -/
theorem mask_idem (thr : ℝ) (u : Univ ℝ N ext H W) :
    maskIf thr (maskIf thr u) = maskIf thr u := by
  unfold maskIf
  split
  · rename_i h
    funext n c i j
    simp only [mask_real]
    split
    · simp
    · split <;> rfl
  · rfl

/-- C06: fewer than four channels are never masked. -/
theorem mask_small (h : ext < 4) (thr : α) (u : Univ α N ext H W) : maskIf thr u = u :=
  maskIf_small h thr u

example : aliveMask (1/10) (by decide) Witness.u4 0 0 1 1 = 0 ∧ Witness.u4 0 0 1 1 ≠ 0 ∧
    aliveMask (1/10) (by decide) Witness.u4 0 0 0 1 = Witness.u4 0 0 0 1 := by decide +kernel

/-! ## C08: the identity layer -/

/-- C08: the default identity layer returns in output channel `o` input channel
`o / (internal / external)` when `internal` is a multiple of `external`. -/
theorem identity_copies (hext : 0 < ext) (hd : ext ∣ int) (mode : PadMode)
    (hH : padOK mode 1 H) (hW : padOK mode 1 W) (u : Univ ℝ N ext H W) :
    ∃ y : Univ ℝ N int H W, (identityLayer ext int mode).apply u = .ok y ∧
      ∀ n (o : Fin int) i j (c : Fin ext), c.val = o.val / (int / ext) → y n o i j = u n c i j := by
  have hfit : Fits (identityLayer (α := ℝ) ext int mode) H W := by
    simp [Fits, identityLayer, ConvLayer.ofKernel, ConvLayer.pad, hH, hW]
  obtain ⟨y, hy⟩ := (apply_ok_iff _ u).2 hfit
  refine ⟨y, hy, fun n o i j c hc => ?_⟩
  obtain ⟨_, rfl⟩ := apply_ok hy
  simp only
  rw [identity_taps_dvd hext hd]
  rw [show srcChan hext hd o = c from Fin.ext hc.symm]

/-- C08: otherwise every output channel is the sum of all input channels. -/
theorem identity_mixes (hd : ¬ ext ∣ int) (mode : PadMode) (hH : padOK mode 1 H)
    (hW : padOK mode 1 W) (u : Univ ℝ N ext H W) :
    ∃ y : Univ ℝ N int H W, (identityLayer ext int mode).apply u = .ok y ∧
      ∀ n (o : Fin int) i j, y n o i j = ∑ c, u n c i j := by
  have hg : groups ext int = 1 := by
    simp [groups, Nat.dvd_iff_mod_eq_zero] at hd ⊢; exact fun h => absurd h hd
  have hfit : Fits (identityLayer (α := ℝ) ext int mode) H W := by
    simp [Fits, identityLayer, ConvLayer.ofKernel, ConvLayer.pad, hH, hW]
  obtain ⟨y, hy⟩ := (apply_ok_iff _ u).2 hfit
  refine ⟨y, hy, fun n o i j => ?_⟩
  obtain ⟨_, rfl⟩ := apply_ok hy
  have h1 : ext / groups ext int = ext := by rw [hg, Nat.div_one]
  simp only
  rw [identity_taps]
  have : ∀ c' : Fin (ext / groups ext int), inChan o c' = Fin.cast h1 c' := by
    intro c'
    apply Fin.ext
    simp only [inChan, hg, Nat.div_one, Nat.div_eq_of_lt o.isLt, Fin.val_cast]; omega
  simp only [this]
  exact Fintype.sum_equiv (finCongr h1) _ _ (fun _ => rfl)

example : 0 < 2 ∧ 2 ∣ 4 ∧ ¬ 2 ∣ 3 ∧ padOK .reflect 1 2 ∧ padOK .circular 1 1 := by decide

end Yuca
