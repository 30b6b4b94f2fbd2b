import Verif.Props.Rules2
import Mathlib.Algebra.BigOperators.Group.Finset.Sigma

/-!
# Different parameters, same automaton (C113)

Over exact reals, with any padding.
-/

namespace Yuca

open Arith

variable {ext int int' N H W : Nat}

namespace Spec

/-- What an automaton adds to a universe per unit of time, as `forward` computes it. -/
noncomputable def rateOf (ca : CCA ℝ ext int) (u : Univ ℝ N ext H W) :
    Except PyErr (Univ ℝ N ext H W) := do
  let idn ← ca.idL.apply u
  let nb ← ca.nbL.apply u
  ca.updateUniverse idn nb

/-- Two automata grow every universe alike (or both raise the same error). -/
structure SameGrowth (ca : CCA ℝ ext int) (ca' : CCA ℝ ext int') : Prop where
  thr : ca'.thr = ca.thr
  growth : ∀ {N H W : Nat} (u : Univ ℝ N ext H W), rateOf ca' u = rateOf ca u

/-- An automaton in functional mode with the growth functions `g` and `p`: one kernel for all
channels, equal weights with sum one. -/
noncomputable def equalWeights (mode : PadMode) (k₀ k : Nat) (κ₀ : Fin k₀ → Fin k₀ → ℝ)
    (κ : Fin k → Fin k → ℝ) (g p : Fin int → ℝ → ℝ) (thr dt t : ℝ) : CCA ℝ ext int where
  idL := .ofKernel ext int mode k₀ κ₀
  nbL := .ofKernel ext int mode k κ
  genesis := List.ofFn g
  persistence := List.ofFn p
  weights := .functional fun _ _ => 1 / ((ext : ℝ) * int)
  thr := thr
  dt := dt
  t := t

/-- The average of the functions of the internal channels that belong to one external channel. -/
noncomputable def pooled (hext : 0 < ext) (hd : ext ∣ int) (g : Fin int → ℝ → ℝ) (c : Fin ext)
    (x : ℝ) : ℝ :=
  (∑ o : Fin int with source hext hd o = c, g o x) / (int / ext : ℕ)

end Spec

/-! ## Automata that grow alike step alike -/

theorem forward_growth (ca : CCA ℝ ext int) (u : Univ ℝ N ext H W) :
    ca.forward u = (Spec.rateOf ca (maskIf ca.thr u)).map fun upd =>
      (eulerClamp ca.dt (maskIf ca.thr u) upd, { ca with t := ca.t + ca.dt }) := by
  unfold CCA.forward Spec.rateOf
  simp only [Bind.bind, Except.bind, pure, Except.pure]
  cases ca.idL.apply (maskIf ca.thr u) with
  | error e => rfl
  | ok a =>
    cases ca.nbL.apply (maskIf ca.thr u) with
    | error e => rfl
    | ok b => cases h : ca.updateUniverse a b <;> simp only [h] <;> rfl

theorem random_growth (s : RandomStepCA ℝ ext int) (r : ℝ) (u : Univ ℝ N ext H W) :
    s.forward r u = (Spec.rateOf s.ca (maskIf s.ca.thr u)).map fun upd =>
      (eulerClamp (r * (s.maxDt - s.minDt) + s.minDt) (maskIf s.ca.thr u) upd,
        { s with
          ca := { s.ca with
            dt := r * (s.maxDt - s.minDt) + s.minDt
            t := s.ca.t + (r * (s.maxDt - s.minDt) + s.minDt) }
          prevDt := 1 * (r * (s.maxDt - s.minDt) + s.minDt) }) := by
  unfold RandomStepCA.forward Spec.rateOf
  simp only [Bind.bind, Except.bind, pure, Except.pure]
  cases s.ca.idL.apply (maskIf s.ca.thr u) with
  | error e => rfl
  | ok a =>
    cases s.ca.nbL.apply (maskIf s.ca.thr u) with
    | error e => rfl
    | ok b => cases h : s.ca.updateUniverse a b <;> simp only [h] <;> rfl

theorem code_growth (s : CODE ℝ ext int) (dt : ℝ) (u : Univ ℝ N ext H W) :
    s.getNewGrid dt u = (Spec.rateOf s.ca (maskIf s.ca.thr u)).map
      (eulerClamp dt (maskIf s.ca.thr u)) := by
  unfold CODE.getNewGrid Spec.rateOf
  simp only [Bind.bind, Except.bind, pure, Except.pure]
  cases s.ca.idL.apply (maskIf s.ca.thr u) with
  | error e => rfl
  | ok a =>
    cases s.ca.nbL.apply (maskIf s.ca.thr u) with
    | error e => rfl
    | ok b => cases h : s.ca.updateUniverse a b <;> simp only [h] <;> rfl

theorem meta_growth (s : MetaCA ℝ ext int) (u : Univ ℝ N ext H W) :
    s.forward u = (Spec.rateOf s.ca (maskIf s.ca.thr u)).map fun upd =>
      (eulerClamp s.ca.dt (maskIf s.ca.thr u)
          (fun n c i j => Momentum.forShape s.dgrid N H W n c i j + s.ddt * upd n c i j),
        { s with dgrid := some ⟨(N, H, W),
          fun n c i j => Momentum.forShape s.dgrid N H W n c i j + s.ddt * upd n c i j⟩ }) := by
  unfold MetaCA.forward Spec.rateOf
  simp only [Bind.bind, Except.bind, pure, Except.pure]
  cases s.ca.idL.apply (maskIf s.ca.thr u) with
  | error e => rfl
  | ok a =>
    cases s.ca.nbL.apply (maskIf s.ca.thr u) with
    | error e => rfl
    | ok b => cases h : s.ca.updateUniverse a b <;> simp only [h] <;> rfl

/-- C113: automata that grow alike produce the same universes and the same clock, as `CCA`,
`RandomStepCA`, `CODE` and `MetaCA`; what they leave behind grows alike again. -/
theorem same_growth_same_step {ca : CCA ℝ ext int} {ca' : CCA ℝ ext int'}
    (h : Spec.SameGrowth ca ca') (hdt : ca'.dt = ca.dt) (ht : ca'.t = ca.t)
    (u : Univ ℝ N ext H W) :
    (ca'.forward u).map (fun r => (r.1, r.2.dt, r.2.t)) =
      (ca.forward u).map (fun r => (r.1, r.2.dt, r.2.t)) ∧
    (∀ prev mx mn r,
      (RandomStepCA.forward ⟨ca', prev, mx, mn⟩ r u).map
        (fun r => (r.1, r.2.ca.dt, r.2.ca.t, r.2.prevDt)) =
      (RandomStepCA.forward ⟨ca, prev, mx, mn⟩ r u).map
        (fun r => (r.1, r.2.ca.dt, r.2.ca.t, r.2.prevDt))) ∧
    (∀ prev mx mn thr fuel,
      (CODE.forward ⟨ca', prev, mx, mn, thr⟩ fuel u).map
        (fun x => x.map fun r => (r.1, r.2.ca.dt, r.2.ca.t, r.2.prevDt)) =
      (CODE.forward ⟨ca, prev, mx, mn, thr⟩ fuel u).map
        (fun x => x.map fun r => (r.1, r.2.ca.dt, r.2.ca.t, r.2.prevDt))) ∧
    (∀ ddt m, (MetaCA.forward ⟨ca', ddt, m⟩ u).map (fun r => (r.1, r.2.dgrid)) =
      (MetaCA.forward ⟨ca, ddt, m⟩ u).map (fun r => (r.1, r.2.dgrid))) := by
  refine ⟨?_, fun prev mx mn r => ?_, fun prev mx mn thr fuel => ?_, fun ddt m => ?_⟩
  · rw [forward_growth, forward_growth, h.thr, h.growth]
    cases Spec.rateOf ca (maskIf ca.thr u) with
    | error e => rfl
    | ok a => simp [Except.map, hdt, ht]
  · rw [random_growth, random_growth]
    simp only [h.thr, h.growth]
    cases Spec.rateOf ca (maskIf ca.thr u) with
    | error e => rfl
    | ok a => simp [Except.map, ht]
  · have hg : ∀ dt (v : Univ ℝ N ext H W), CODE.getNewGrid ⟨ca', prev, mx, mn, thr⟩ dt v =
        CODE.getNewGrid ⟨ca, prev, mx, mn, thr⟩ dt v := by
      intro dt v
      rw [code_growth, code_growth]
      simp only [h.thr, h.growth]
    have ha : CODE.accept ⟨ca', prev, mx, mn, thr⟩ u = CODE.accept ⟨ca, prev, mx, mn, thr⟩ u := by
      funext step
      unfold CODE.accept
      simp only [hg]
    unfold CODE.forward
    rw [ha]
    dsimp only [CODE.firstStep]
    generalize adaptLoop mn (CODE.accept ⟨ca, prev, mx, mn, thr⟩ u) fuel _ false = L
    cases L with
    | outOfFuel => rfl
    | raised e => rfl
    | done keep step tested =>
      cases tested with
      | false => rfl
      | true =>
        simp only [if_true, hg, Option.map]
        cases CODE.getNewGrid ⟨ca, prev, mx, mn, thr⟩ (if keep then step else mn) u with
        | error e => rfl
        | ok a => simp [Bind.bind, Except.bind, pure, Except.pure, Except.map, ht]
  · rw [meta_growth, meta_growth]
    simp only [h.thr, h.growth]
    cases Spec.rateOf ca (maskIf ca.thr u) with
    | error e => rfl
    | ok a => simp [Except.map, hdt]

/-! ## Internal channels only average -/

theorem source_self {ext : Nat} (hext : 0 < ext) (c : Fin ext) :
    Spec.source hext (dvd_refl ext) c = c := by
  apply Fin.ext
  simp [Spec.source, Nat.div_self hext]

theorem block_taps (hext : 0 < ext) (hd : ext ∣ int) (m : PadMode) (k : Nat)
    (κ : Fin k → Fin k → ℝ) (x : Fin ext → Grid ℝ H W) (o : Fin int) (i : Fin H) (j : Fin W) :
    dot ((ConvLayer.ofKernel ext int m k κ).taps x o i j) =
      ∑ a, ∑ b, κ a b * padRead m (x (Spec.source hext hd o))
        ((i.val : Int) + a.val - ((k - 1) / 2 : ℕ)) ((j.val : Int) + b.val - ((k - 1) / 2 : ℕ)) := by
  have hg : groups ext int = ext := by simp [groups, Nat.mod_eq_zero_of_dvd hd]
  have h1 : ext / groups ext int = 1 := by rw [hg, Nat.div_self hext]
  rw [conv_sum_pad_ofKernel, sum_fin_one h1]
  simp only [inChan_dvd hext hd]

/-- The value of an internal channel is that of the block it belongs to. -/
theorem block_apply (hext : 0 < ext) (hd : ext ∣ int) (m : PadMode) (k : Nat)
    (κ : Fin k → Fin k → ℝ) (u : Univ ℝ N ext H W) :
    (ConvLayer.ofKernel ext int m k κ).apply u =
      ((ConvLayer.ofKernel ext ext m k κ).apply u).map
        fun y n o i j => y n (Spec.source hext hd o) i j := by
  unfold ConvLayer.apply
  change (if k % 2 = 1 ∧ padOK m ((k - 1) / 2) H = true ∧ padOK m ((k - 1) / 2) W = true then _
    else _) = Except.map _ (if k % 2 = 1 ∧ padOK m ((k - 1) / 2) H = true ∧
      padOK m ((k - 1) / 2) W = true then _ else _)
  by_cases h : k % 2 = 1 ∧ padOK m ((k - 1) / 2) H = true ∧ padOK m ((k - 1) / 2) W = true
  · rw [if_pos h, if_pos h]
    show Except.ok _ = Except.ok _
    congr 1
    funext n o i j
    show dot _ = dot _
    rw [block_taps hext hd, block_taps hext (dvd_refl ext), source_self]
  · rw [if_neg h, if_neg h]
    rfl

theorem chanFn_ofFn (g : Fin int → ℝ → ℝ) (o : Fin int) : chanFn (List.ofFn g) o = g o := by
  simp [chanFn, List.getD]

theorem equalWeights_update (mode : PadMode) (k₀ k : Nat) (κ₀ : Fin k₀ → Fin k₀ → ℝ)
    (κ : Fin k → Fin k → ℝ) (g p : Fin int → ℝ → ℝ) (thr dt t : ℝ)
    (a b : Univ ℝ N int H W) :
    (Spec.equalWeights (ext := ext) mode k₀ k κ₀ κ g p thr dt t).updateUniverse a b =
      .ok fun n _ i j => 1 / ((ext : ℝ) * int) * ∑ o, ((1 - a n o i j) * g o (b n o i j) +
        a n o i j * p o (b n o i j)) := by
  unfold CCA.updateUniverse
  simp only [Bind.bind, Except.bind, pure, Except.pure, Spec.equalWeights]
  rw [perChannel_eq (by simp), perChannel_eq (by simp)]
  show Except.ok _ = Except.ok _
  congr 1
  funext n e i j
  simp only [Weights.apply, conv1x1]
  rw [dot_finRange (fun _ => 1 / ((ext : ℝ) * int)), Finset.mul_sum]
  simp only [chanFn_ofFn]
  rfl

/-- C113: in functional mode internal channels beyond one per external channel only average growth
functions: the automaton with the averaged functions and as many internal as external channels grows
every universe alike. -/
theorem internal_average (hext : 0 < ext) (hint : 0 < int) (hd : ext ∣ int) (mode : PadMode)
    (k₀ k : Nat) (κ₀ : Fin k₀ → Fin k₀ → ℝ) (κ : Fin k → Fin k → ℝ) (g p : Fin int → ℝ → ℝ)
    (thr dt t : ℝ) :
    Spec.SameGrowth (Spec.equalWeights (ext := ext) mode k₀ k κ₀ κ g p thr dt t)
      (Spec.equalWeights (ext := ext) mode k₀ k κ₀ κ (Spec.pooled hext hd g)
        (Spec.pooled hext hd p) thr dt t) := by
  refine ⟨rfl, fun {N H W} u => ?_⟩
  unfold Spec.rateOf
  show (do
      let idn ← (ConvLayer.ofKernel ext ext mode k₀ κ₀).apply u
      let nb ← (ConvLayer.ofKernel ext ext mode k κ).apply u
      (Spec.equalWeights (ext := ext) mode k₀ k κ₀ κ (Spec.pooled hext hd g)
        (Spec.pooled hext hd p) thr dt t).updateUniverse idn nb) =
    (do
      let idn ← (ConvLayer.ofKernel ext int mode k₀ κ₀).apply u
      let nb ← (ConvLayer.ofKernel ext int mode k κ).apply u
      (Spec.equalWeights (ext := ext) mode k₀ k κ₀ κ g p thr dt t).updateUniverse idn nb)
  rw [block_apply hext hd mode k₀, block_apply hext hd mode k]
  cases (ConvLayer.ofKernel ext ext mode k₀ κ₀).apply u with
  | error e => rfl
  | ok a =>
    cases (ConvLayer.ofKernel ext ext mode k κ).apply u with
    | error e => rfl
    | ok b =>
      simp only [Bind.bind, Except.bind, Except.map]
      rw [equalWeights_update, equalWeights_update]
      congr 1
      funext n e i j
      obtain ⟨q, rfl⟩ := hd
      have hq : 0 < q := Nat.pos_of_mul_pos_left hint
      have hdiv : ext * q / ext = q := Nat.mul_div_cancel_left q hext
      have hq' : (q : ℝ) ≠ 0 := by exact_mod_cast hq.ne'
      have he' : (ext : ℝ) ≠ 0 := by exact_mod_cast hext.ne'
      rw [← Finset.sum_fiberwise (s := (Finset.univ : Finset (Fin (ext * q))))
        (g := Spec.source hext ⟨q, rfl⟩), Finset.mul_sum, Finset.mul_sum]
      refine Finset.sum_congr rfl fun c _ => ?_
      have hs : ∑ o : Fin (ext * q) with Spec.source hext ⟨q, rfl⟩ o = c,
          ((1 - a n (Spec.source hext ⟨q, rfl⟩ o) i j) * g o (b n (Spec.source hext ⟨q, rfl⟩ o) i j) +
            a n (Spec.source hext ⟨q, rfl⟩ o) i j * p o (b n (Spec.source hext ⟨q, rfl⟩ o) i j)) =
          ∑ o : Fin (ext * q) with Spec.source hext ⟨q, rfl⟩ o = c,
            ((1 - a n c i j) * g o (b n c i j) + a n c i j * p o (b n c i j)) := by
        refine Finset.sum_congr rfl fun o ho => ?_
        rw [(Finset.mem_filter.mp ho).2]
      rw [hs, Finset.sum_add_distrib, ← Finset.mul_sum, ← Finset.mul_sum]
      unfold Spec.pooled
      rw [hdiv]
      push_cast
      field_simp

/-- C113: the order of the growth functions inside a block does not matter; with one external channel
no order does. -/
theorem internal_order (hext : 0 < ext) (hint : 0 < int) (hd : ext ∣ int) (mode : PadMode)
    (k₀ k : Nat) (κ₀ : Fin k₀ → Fin k₀ → ℝ) (κ : Fin k → Fin k → ℝ) (g p : Fin int → ℝ → ℝ)
    (thr dt t : ℝ) (σ τ : Equiv.Perm (Fin int))
    (hσ : ∀ o, Spec.source hext hd (σ o) = Spec.source hext hd o)
    (hτ : ∀ o, Spec.source hext hd (τ o) = Spec.source hext hd o) :
    Spec.SameGrowth (Spec.equalWeights (ext := ext) mode k₀ k κ₀ κ g p thr dt t)
      (Spec.equalWeights (ext := ext) mode k₀ k κ₀ κ (fun o => g (σ o)) (fun o => p (τ o))
        thr dt t) := by
  have hp : ∀ (f : Fin int → ℝ → ℝ) (ρ : Equiv.Perm (Fin int)),
      (∀ o, Spec.source hext hd (ρ o) = Spec.source hext hd o) →
      Spec.pooled hext hd (fun o => f (ρ o)) = Spec.pooled hext hd f := by
    intro f ρ hρ
    funext c x
    unfold Spec.pooled
    congr 1
    refine Finset.sum_equiv ρ (fun o => ?_) (fun o _ => rfl)
    simp [hρ o]
  refine ⟨rfl, fun {N H W} u => ?_⟩
  rw [← (internal_average hext hint hd mode k₀ k κ₀ κ g p thr dt t).growth u,
    ← (internal_average hext hint hd mode k₀ k κ₀ κ _ _ thr dt t).growth u, hp g σ hσ, hp p τ hτ]

/-- With one external channel there is one block. -/
theorem source_one (hd : 1 ∣ int) (o : Fin int) (c : Fin 1) :
    Spec.source Nat.one_pos hd o = c := Subsingleton.elim _ _

/-- Three internal channels in another order. -/
example (mode : PadMode) (κ₀ : Fin 3 → Fin 3 → ℝ) (κ : Fin 5 → Fin 5 → ℝ) (g p : Fin 3 → ℝ → ℝ) :
    Spec.SameGrowth (Spec.equalWeights (ext := 1) mode 3 5 κ₀ κ g p 0.1 0.1 0)
      (Spec.equalWeights (ext := 1) mode 3 5 κ₀ κ (fun o => g (Equiv.swap 0 2 o)) p 0.1 0.1 0) :=
  internal_order Nat.one_pos (by norm_num) (one_dvd 3) mode 3 5 κ₀ κ g p 0.1 0.1 0
    (Equiv.swap 0 2) (Equiv.refl _) (fun _ => Subsingleton.elim _ _) (fun _ => rfl)

/-! ## Gaussian mixtures -/

theorem triples_flat (cs : List (ℝ × ℝ × ℝ)) :
    mixtureComponents.triples (cs.flatMap fun c => [c.1, c.2.1, c.2.2]) = .ok cs := by
  induction cs with
  | nil => rfl
  | cons c cs ih =>
    simp only [List.flatMap_cons, List.cons_append, List.nil_append, mixtureComponents.triples, ih]
    rfl

theorem components_flat (cs : List (ℝ × ℝ × ℝ)) :
    mixtureComponents 1 (cs.flatMap fun c => [c.1, c.2.1, c.2.2]) = .ok cs := by
  have h : (cs.flatMap fun c => [c.1, c.2.1, c.2.2]).length = 3 * cs.length := by
    induction cs with
    | nil => rfl
    | cons c cs ih => simp only [List.flatMap_cons, List.length_append, ih, List.length_cons,
        List.length_nil]; omega
  unfold mixtureComponents
  rw [if_pos (by omega), triples_flat]

theorem mixture_perm {cs cs' : List (ℝ × ℝ × ℝ)} (h : cs.Perm cs') (mode : Bool) :
    mixtureFn cs mode = mixtureFn cs' mode := by
  funext x
  unfold mixtureFn
  rw [(h.map _).sum_eq]

/-- C113: the peaks of a mixture kernel, and of a mixture growth function, have no order: two
parameter vectors with the same triples in different order give the same kernel and function. -/
theorem peaks_order {cs cs' : List (ℝ × ℝ × ℝ)} (h : cs.Perm cs') (r : Nat) (mode : Bool) :
    gaussianMixtureKernel r (cs.flatMap fun c => [c.1, c.2.1, c.2.2]) =
      gaussianMixtureKernel r (cs'.flatMap fun c => [c.1, c.2.1, c.2.2]) ∧
    (Act.mixture cs mode).eval = (Act.mixture cs' mode).eval := by
  refine ⟨?_, mixture_perm h mode⟩
  have hk : ∀ m, kernelFn "GaussianMixture"
      { parameters := some (cs.flatMap fun c => [c.1, c.2.1, c.2.2]), mode := m } =
      kernelFn "GaussianMixture"
        { parameters := some (cs'.flatMap fun c => [c.1, c.2.1, c.2.2]), mode := m } := by
    intro m
    unfold kernelFn
    rw [if_neg (by decide), if_pos rfl, if_neg (by decide), if_pos rfl]
    simp only [Option.getD_some, components_flat, Bind.bind, Except.bind]
    have he : cs = [] ↔ cs' = [] := by
      constructor
      · rintro rfl; exact h.nil_eq.symm
      · rintro rfl; exact h.eq_nil
    rw [mixture_perm h]
    by_cases hn : cs = []
    · rw [if_pos hn, if_pos (he.mp hn)]
    · rw [if_neg hn, if_neg (fun hc => hn (he.mpr hc))]
  unfold gaussianMixtureKernel getKernel
  simp only [hk]

/-- The peaks of a kernel with three peaks in reverse order. -/
example (r : Nat) : gaussianMixtureKernel r [1, 0.2, 0.1, 0.5, 0.5, 0.1, 0.25, 0.8, 0.1] =
    gaussianMixtureKernel r [0.25, 0.8, 0.1, 0.5, 0.5, 0.1, 1, 0.2, 0.1] :=
  (peaks_order (cs := [(1, 0.2, 0.1), (0.5, 0.5, 0.1), (0.25, 0.8, 0.1)])
    (List.reverse_perm _).symm r false).1

/-- C113: a width and its mirror image at `-1e-9` give the same bell, so the sign of a width hardly
matters: Gaussian, double Gaussian and mixture functions are unchanged. -/
theorem width_mirror (mu sigma x : ℝ) : bump mu (-sigma - 2 * eps9) x = bump mu sigma x := by
  unfold bump
  have : eps9 + (-sigma - 2 * eps9) = -(eps9 + sigma) := by ring
  rw [this, div_neg, neg_sq]

/-! ## Scales -/

theorem forward_fst (ca : CCA ℝ ext int) (u : Univ ℝ N ext H W) :
    (ca.forward u).map Prod.fst =
      (Spec.rateOf ca (maskIf ca.thr u)).map (eulerClamp ca.dt (maskIf ca.thr u)) := by
  rw [forward_growth]
  cases Spec.rateOf ca (maskIf ca.thr u) <;> rfl

theorem conv1x1_real {a b : Nat} (w : Fin b → Fin a → ℝ) (x : Univ ℝ N a H W) (n : Fin N)
    (e : Fin b) (i : Fin H) (j : Fin W) : conv1x1 w x n e i j = ∑ o, w e o * x n o i j :=
  dot_finRange (w e) fun o => x n o i j

theorem rateOf_weights (ca : CCA ℝ ext int) (l : Weights ℝ ext int)
    (f : ∀ {N H W : Nat}, Univ ℝ N ext H W → Univ ℝ N ext H W)
    (h : ∀ {N H W : Nat} (x : Univ ℝ N int H W), l.apply x = f (ca.weights.apply x))
    (dt : ℝ) (u : Univ ℝ N ext H W) :
    Spec.rateOf { ca with weights := l, dt := dt } u = (Spec.rateOf ca u).map f := by
  unfold Spec.rateOf CCA.updateUniverse
  simp only [Bind.bind, Except.bind, pure, Except.pure]
  cases ca.idL.apply u with
  | error e => rfl
  | ok a =>
    cases ca.nbL.apply u with
    | error e => rfl
    | ok b =>
      cases h1 : perChannel ca.genesis b with
      | error e => simp only [h1]; rfl
      | ok g =>
        cases h2 : perChannel ca.persistence b with
        | error e => simp only [h1, h2]; rfl
        | ok p => simp only [h1, h2, h]; rfl

/-- C113: only the product of the step size and the last weights counts: weights `c` times as large
with a step size `c` times as small give the same universes. -/
theorem weights_and_dt (ca : CCA ℝ ext int) (c : ℝ) (hc : c ≠ 0) (u : Univ ℝ N ext H W) :
    (∀ w, ca.weights = .functional w →
      (CCA.forward { ca with
        weights := .functional fun e o => c * w e o
        dt := ca.dt / c } u).map Prod.fst = (ca.forward u).map Prod.fst) ∧
    ∀ w₁ w₂, ca.weights = .sequential w₁ w₂ →
      (CCA.forward { ca with
        weights := .sequential w₁ fun e o => c * w₂ e o
        dt := ca.dt / c } u).map Prod.fst = (ca.forward u).map Prod.fst := by
  have key : ∀ l : Weights ℝ ext int,
      (∀ {N H W : Nat} (x : Univ ℝ N int H W), l.apply x =
        fun n e i j => c * ca.weights.apply x n e i j) →
      (CCA.forward { ca with weights := l, dt := ca.dt / c } u).map Prod.fst =
        (ca.forward u).map Prod.fst := by
    intro l hl
    rw [forward_fst, forward_fst]
    show (Spec.rateOf { ca with weights := l, dt := ca.dt / c } (maskIf ca.thr u)).map
      (eulerClamp (ca.dt / c) (maskIf ca.thr u)) = _
    rw [rateOf_weights ca l (fun v n e i j => c * v n e i j) hl]
    cases Spec.rateOf ca (maskIf ca.thr u) with
    | error e => rfl
    | ok v =>
      show Except.ok _ = Except.ok _
      congr 1
      funext n e i j
      simp only [eulerClamp, Arith.add, Arith.mul]
      congr 2
      field_simp
  refine ⟨fun w hw => key _ fun x => ?_, fun w₁ w₂ hw => key _ fun x => ?_⟩
  · rw [hw]
    funext n e i j
    simp only [Weights.apply, conv1x1_real, Finset.mul_sum, mul_assoc]
  · rw [hw]
    funext n e i j
    simp only [Weights.apply, conv1x1_real, Finset.mul_sum, mul_assoc]

/-- C113: in the other weight layer the two matrices trade factors: the first `c` times as large and
the second `c` times as small (`c > 0`) is the same rule. -/
theorem layers_trade (ca : CCA ℝ ext int) (c : ℝ) (hc : 0 < c) (w₁ : Fin int → Fin int → ℝ)
    (w₂ : Fin ext → Fin int → ℝ) (hw : ca.weights = .sequential w₁ w₂) :
    Spec.SameGrowth ca { ca with
      weights := .sequential (fun a b => c * w₁ a b) (fun e o => w₂ e o / c) } := by
  refine ⟨rfl, fun {N H W} u => ?_⟩
  have := rateOf_weights ca (.sequential (fun a b => c * w₁ a b) (fun e o => w₂ e o / c))
    (fun v => v) (fun {N H W} x => ?_) ca.dt u
  · refine Eq.trans this ?_
    cases Spec.rateOf ca u <;> rfl
  · rw [hw]
    funext n e i j
    simp only [Weights.apply, conv1x1_real, relu_real]
    refine Finset.sum_congr rfl fun o _ => ?_
    have : ∑ a, c * w₁ o a * x n a i j = c * ∑ a, w₁ o a * x n a i j := by
      simp only [Finset.mul_sum, mul_assoc]
    have h0 : max 0 (c * ∑ a, w₁ o a * x n a i j) = c * max 0 (∑ a, w₁ o a * x n a i j) := by
      rw [mul_max_of_nonneg _ _ hc.le, mul_zero]
    rw [this, h0]
    field_simp

/-- The momentum divided by `c`. -/
noncomputable def Spec.slower (c : ℝ) (m : Momentum ℝ ext) : Momentum ℝ ext :=
  m.map fun q => ⟨q.1, fun n e i j => q.2 n e i j / c⟩

/-- A `MetaCA` with a step size `c` times as large and momentum changing `c` times as slowly. -/
noncomputable def Spec.regeared (c : ℝ) (s : MetaCA ℝ ext int) : MetaCA ℝ ext int :=
  ⟨{ s.ca with dt := s.ca.dt * c }, s.ddt / c, Spec.slower c s.dgrid⟩

theorem slower_shape (c : ℝ) (m : Momentum ℝ ext) (n : Fin N) (e : Fin ext) (i : Fin H)
    (j : Fin W) : Momentum.forShape (Spec.slower c m) N H W n e i j =
      Momentum.forShape m N H W n e i j / c := by
  cases m with
  | none => simp [Spec.slower, Momentum.forShape, Arith.zero]
  | some q =>
    obtain ⟨s, d⟩ := q
    simp only [Spec.slower, Option.map, Momentum.forShape]
    by_cases h : s = (N, H, W)
    · subst h; simp
    · simp [dif_neg h, Arith.zero]

/-- C113: only the product of `dt` and `ddt` counts in a `MetaCA` that starts without momentum: for
any number of steps the universes are those of the regeared automaton, whose momentum is `c` times
smaller. -/
theorem meta_gears (c : ℝ) (hc : c ≠ 0) (s : MetaCA ℝ ext int) (u : Univ ℝ N ext H W) (k : Nat) :
    iterate (fun s u => MetaCA.forward s u) k (Spec.regeared c s) u =
      Prod.map id (Spec.regeared c) <$> iterate (fun s u => MetaCA.forward s u) k s u := by
  refine iterate_map₂ id (Spec.regeared c) _ _ (fun _ => True) (fun _ _ _ _ _ _ => trivial)
    (fun s b _ => ?_) k s u trivial
  show MetaCA.forward (Spec.regeared c s) b = _
  rw [meta_growth, meta_growth]
  show Except.map _ (Spec.rateOf (Spec.regeared c s).ca (maskIf s.ca.thr b)) = _
  have hg : Spec.rateOf (Spec.regeared c s).ca (maskIf s.ca.thr b) =
      Spec.rateOf s.ca (maskIf s.ca.thr b) := rfl
  rw [hg]
  cases Spec.rateOf s.ca (maskIf s.ca.thr b) with
  | error e => rfl
  | ok v =>
    have hm : ∀ n e i j, Momentum.forShape (Spec.regeared c s).dgrid N H W n e i j +
        (Spec.regeared c s).ddt * v n e i j =
        (Momentum.forShape s.dgrid N H W n e i j + s.ddt * v n e i j) / c := by
      intro n e i j
      show Momentum.forShape (Spec.slower c s.dgrid) N H W n e i j + s.ddt / c * v n e i j = _
      rw [slower_shape]; ring
    simp only [hm, Functor.map, Except.map]
    congr 1
    refine Prod.ext ?_ rfl
    funext n e i j
    show clamp01 (maskIf s.ca.thr b n e i j + s.ca.dt * c * (_ / c)) = clamp01 _
    congr 1
    simp only [Arith.add, Arith.mul]
    field_simp

/-! ## Live and dead are treated alike -/

namespace Spec

/-- Life and death exchanged. -/
def inverse {C : Nat} (u : Univ ℝ N C H W) : Univ ℝ N C H W := fun n c i j => 1 - u n c i j

/-- The automaton for the exchanged universe; `s` is the sum of the kernel. -/
noncomputable def dual (s : ℝ) (ca : CCA ℝ ext int) : CCA ℝ ext int :=
  { ca with
    genesis := ca.persistence.map fun p x => -p (s - x)
    persistence := ca.genesis.map fun g x => -g (s - x) }

end Spec

theorem pad_some {m : PadMode} (hm : m ≠ .zeros) {n p : Nat} (hp : padOK m p n = true) (i : Fin n)
    (a : Nat) (ha : a < 2 * p + 1) : ∃ r, padIdx m n ((i.val : Int) + a - p) = some r := by
  have hi := i.isLt
  cases m with
  | zeros => exact absurd rfl hm
  | circular =>
    have h : 0 < n := by omega
    exact ⟨_, dif_pos h⟩
  | replicate =>
    have h : 0 < n := by omega
    exact ⟨_, dif_pos h⟩
  | reflect =>
    have hp' : p < n := by simpa [padOK] using hp
    simp only [padIdx]
    split_ifs with h1 h2 h3 h4 h5 <;> first | exact ⟨_, rfl⟩ | (exfalso; omega)

theorem inverse_taps (hext : 0 < ext) (hd : ext ∣ int) {m : PadMode} (hm : m ≠ .zeros) {k : Nat}
    (hk : k % 2 = 1) (hH : padOK m ((k - 1) / 2) H = true) (hW : padOK m ((k - 1) / 2) W = true)
    (κ : Fin k → Fin k → ℝ) (u : Univ ℝ N ext H W) (n : Fin N) (o : Fin int) (i : Fin H)
    (j : Fin W) :
    dot ((ConvLayer.ofKernel ext int m k κ).taps (Spec.inverse u n) o i j) =
      (∑ a, ∑ b, κ a b) - dot ((ConvLayer.ofKernel ext int m k κ).taps (u n) o i j) := by
  rw [block_taps hext hd, block_taps hext hd]
  simp only [← Finset.sum_sub_distrib]
  refine Finset.sum_congr rfl fun a _ => Finset.sum_congr rfl fun b _ => ?_
  obtain ⟨r, hr⟩ := pad_some hm hH i a.val (by have := a.isLt; omega)
  obtain ⟨s, hs⟩ := pad_some hm hW j b.val (by have := b.isLt; omega)
  simp only [padRead, hr, hs, Spec.inverse]
  ring

theorem clamp01_inverse (x : ℝ) : clamp01 (1 - x) = 1 - clamp01 x := by
  rw [clamp01_real, clamp01_real]
  rcases le_total x 0 with h | h
  · rw [min_eq_left (by linarith), min_eq_right (by linarith), max_eq_left h]
    simp
  · rcases le_total x 1 with h1 | h1
    · rw [min_eq_right (by linarith), min_eq_right h1, max_eq_right (by linarith), max_eq_right h]
    · rw [min_eq_right (by linarith), max_eq_left (by linarith), min_eq_left h1]
      simp

theorem chanFn_map (f : (ℝ → ℝ) → ℝ → ℝ) {fns : List (ℝ → ℝ)} (hl : fns.length = int)
    (o : Fin int) : chanFn (fns.map f) o = f (chanFn fns o) := by
  rw [← chanFn_get (by simpa using hl), ← chanFn_get hl]
  simp

/-- C113: life and death are treated alike.  With linear weights, up to three channels and any padding
but zeros, the universe with life and death exchanged is stepped by the dual automaton exactly as the
original by the original one; the dual of the dual is the original. -/
theorem dual_step (hext : 0 < ext) (hd : ext ∣ int) (h3 : ext < 4) (m : PadMode) (hm : m ≠ .zeros)
    (k : Nat) (κ : Fin k → Fin k → ℝ) (ca : CCA ℝ ext int) (w : Fin ext → Fin int → ℝ)
    (hw : ca.weights = .functional w) (hid : ca.idL = identityLayer ext int m)
    (hnb : ca.nbL = .ofKernel ext int m k κ) (u : Univ ℝ N ext H W)
    {r : Univ ℝ N ext H W × CCA ℝ ext int} (h : ca.forward u = .ok r) :
    (Spec.dual (∑ a, ∑ b, κ a b) ca).forward (Spec.inverse u) =
      .ok (Spec.inverse r.1, Spec.dual (∑ a, ∑ b, κ a b) r.2) := by
  obtain ⟨hg, hp, h2, hcell⟩ := cca_cell hw h
  obtain ⟨hf1, hf2, -, -⟩ := (cca_runs_iff ca u).mp ⟨r, h⟩
  obtain ⟨r', h'⟩ := (cca_runs_iff (Spec.dual (∑ a, ∑ b, κ a b) ca) (Spec.inverse u)).mpr
    ⟨hf1, hf2, by simp [Spec.dual, hp], by simp [Spec.dual, hg]⟩
  obtain ⟨-, -, h2', hcell'⟩ := cca_cell (ca := Spec.dual (∑ a, ∑ b, κ a b) ca) hw h'
  rw [h']
  congr 1
  refine Prod.ext ?_ (by rw [h2', h2]; rfl)
  funext n e i j
  show r'.1 n e i j = 1 - r.1 n e i j
  rw [hcell', hcell, ← clamp01_inverse]
  rw [hid] at hf1
  rw [hnb] at hf2
  have hf1' : (3 : Nat) % 2 = 1 ∧ padOK m ((3 - 1) / 2) H = true ∧ padOK m ((3 - 1) / 2) W = true := hf1
  have hf2' : k % 2 = 1 ∧ padOK m ((k - 1) / 2) H = true ∧ padOK m ((k - 1) / 2) W = true := hf2
  have hdid : (Spec.dual (∑ a, ∑ b, κ a b) ca).idL = identityLayer ext int m := hid
  have hdnb : (Spec.dual (∑ a, ∑ b, κ a b) ca).nbL = .ofKernel ext int m k κ := hnb
  have hone : ∑ a : Fin 3, ∑ b : Fin 3, (identityKernel a b : ℝ) = 1 := by
    have := identityKernel_sum fun _ _ => (1 : ℝ)
    simpa using this
  simp only [maskIf_small h3, hdid, hdnb, hid, hnb, identityLayer,
    inverse_taps hext hd hm hf1'.1 hf1'.2.1 hf1'.2.2,
    inverse_taps hext hd hm hf2'.1 hf2'.2.1 hf2'.2.2, hone]
  have hdg : ∀ o : Fin int, chanFn (Spec.dual (∑ a, ∑ b, κ a b) ca).genesis o =
      fun x => -chanFn ca.persistence o ((∑ a, ∑ b, κ a b) - x) := fun o =>
    chanFn_map (fun p x => -p ((∑ a, ∑ b, κ a b) - x)) hp o
  have hdp : ∀ o : Fin int, chanFn (Spec.dual (∑ a, ∑ b, κ a b) ca).persistence o =
      fun x => -chanFn ca.genesis o ((∑ a, ∑ b, κ a b) - x) := fun o =>
    chanFn_map (fun p x => -p ((∑ a, ∑ b, κ a b) - x)) hg o
  simp only [hdg, hdp, sub_sub_cancel]
  congr 1
  show 1 - u n e i j + ca.dt * _ = 1 - (u n e i j + ca.dt * _)
  rw [← sub_sub, sub_eq_add_neg (1 - u n e i j), ← mul_neg, ← Finset.sum_neg_distrib]
  congr 2
  refine Finset.sum_congr rfl fun o _ => ?_
  ring

theorem dual_dual (s : ℝ) (ca : CCA ℝ ext int) : Spec.dual s (Spec.dual s ca) = ca := by
  unfold Spec.dual
  simp [List.map_map, Function.comp_def]

/-- C113: the same for any number of steps. -/
theorem dual_run (hext : 0 < ext) (hd : ext ∣ int) (h3 : ext < 4) (m : PadMode) (hm : m ≠ .zeros)
    (k : Nat) (κ : Fin k → Fin k → ℝ) (ca : CCA ℝ ext int) (w : Fin ext → Fin int → ℝ)
    (hw : ca.weights = .functional w) (hid : ca.idL = identityLayer ext int m)
    (hnb : ca.nbL = .ofKernel ext int m k κ) (steps : Nat) (u : Univ ℝ N ext H W)
    {r : Univ ℝ N ext H W × CCA ℝ ext int}
    (h : iterate (fun s u => CCA.forward s u) steps ca u = .ok r) :
    iterate (fun s u => CCA.forward s u) steps (Spec.dual (∑ a, ∑ b, κ a b) ca) (Spec.inverse u) =
      .ok (Spec.inverse r.1, Spec.dual (∑ a, ∑ b, κ a b) r.2) := by
  induction steps generalizing ca u with
  | zero =>
    cases h
    rfl
  | succ steps ih =>
    obtain ⟨⟨u₁, c₁⟩, h1, h2⟩ := bind_ok h
    have hc := (cca_cell hw h1).2.2.1
    simp only at hc
    have hs := dual_step hext hd h3 m hm k κ ca w hw hid hnb u h1
    have := ih c₁ (by rw [hc]; exact hw) (by rw [hc]; exact hid) (by rw [hc]; exact hnb) u₁ h2
    simp only [iterate, hs, Bind.bind, Except.bind]
    exact this

/-- The hypotheses are met by an automaton on a torus with a kernel of side 3. -/
example (g p : ℝ → ℝ) (u : Univ ℝ 1 1 4 5) : ∃ r, CCA.forward
    (⟨identityLayer 1 1 .circular, .ofKernel 1 1 .circular 3 fun _ _ => 1 / 9, [g], [p],
      .functional fun _ _ => 1, 0.1, 0.1, 0⟩ : CCA ℝ 1 1) u = .ok r :=
  (cca_runs_iff _ u).mpr
    ⟨⟨by show 3 % 2 = 1; norm_num, decide_eq_true (by show (3 - 1) / 2 ≤ 4; norm_num),
      decide_eq_true (by show (3 - 1) / 2 ≤ 5; norm_num)⟩,
     ⟨by show 3 % 2 = 1; norm_num, decide_eq_true (by show (3 - 1) / 2 ≤ 4; norm_num),
      decide_eq_true (by show (3 - 1) / 2 ≤ 5; norm_num)⟩, rfl, rfl⟩

end Yuca
