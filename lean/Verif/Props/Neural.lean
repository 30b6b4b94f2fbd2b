import Verif.Model.Neural
import Verif.Lemmas.Euler
import Verif.Props.Reconfigure
import Verif.Props.Predictor
import Verif.Props.SmallSteps
import Verif.Props.Trajectories

/-!
# C111: neural automata, from the flat vector to the universe
-/

namespace Yuca

open Arith Spec

variable {N H W ext int hid : Nat}

/-! ## Which activation -/

/-- C111: the name `make_config` stores for the activation selects the same activation again. -/
theorem saved_activation (k : ActKind) : chooseAct (some k.savedName) = k := by
  cases k <;> decide +kernel

/-- C111: the stored name is one of the seven names of the dictionary. -/
theorem saved_activation_name (k : ActKind) : k.savedName = (match k with
    | .tanh => "Tanh"
    | .relu => "ReLU"
    | .silu => "SiLU"
    | .elu => "ELU"
    | .sigmoid => "Sigmoid"
    | .gaussian => "Gaussian"
    | .identity => "Identity").toList := by
  cases k <;> decide +kernel

/-- C111: exactly the seven names of the dictionary are understood; everything else, a class given
instead of its name included, silently becomes the Gaussian. -/
theorem unknown_activation (arg : Option Str)
    (h : ∀ s, arg = some s → s ∉ ["Tanh", "ReLU", "SiLU", "ELU", "Sigmoid", "Gaussian",
      "Identity"].map String.toList) : chooseAct arg = .gaussian := by
  unfold chooseAct
  split
  · rfl
  · rename_i s
    have := h s rfl
    simp only [List.map_cons, List.map_nil, List.mem_cons, List.not_mem_nil, or_false,
      not_or] at this
    obtain ⟨h1, h2, h3, h4, h5, h6, h7⟩ := this
    have e : activationDict.lookup s = none := by
      simp only [activationDict, List.lookup, beq_eq_false_iff_ne.2 h1, beq_eq_false_iff_ne.2 h2,
        beq_eq_false_iff_ne.2 h3, beq_eq_false_iff_ne.2 h4, beq_eq_false_iff_ne.2 h5,
        beq_eq_false_iff_ne.2 h6, beq_eq_false_iff_ne.2 h7]
    rw [e]

/-- `nn.Tanh` itself is not a string, and "tanh" is not a key: both give a Gaussian network. -/
example : chooseAct none = .gaussian ∧ chooseAct (some "tanh".toList) = .gaussian ∧
    chooseAct (some "Tanh".toList) = .tanh :=
  ⟨rfl, unknown_activation _ (by intro s h; cases h; decide), by decide⟩

/-! ## From the flat vector to the network -/

theorem slice_getD (v : List ℝ) {k n i : Nat} (hi : i < n) :
    ((v.drop k).take n).getD i 0 = v.getD (k + i) 0 := by
  simp only [List.getD_eq_getElem?_getD, List.getElem?_take, hi, if_true, List.getElem?_drop]

theorem slice_one (v : List ℝ) {k : Nat} (hk : k < v.length) :
    (v.drop k).take 1 = [v.getD k 0] := by
  have e : v.getD k 0 = v[k] := by
    simp [List.getD_eq_getElem?_getD, List.getElem?_eq_getElem hk]
  rw [List.drop_eq_getElem_cons hk, e]
  rfl

theorem entry_lt {rows cols : Nat} (p : Fin rows) (q : Fin cols) :
    p.val * cols + q.val < rows * cols := by
  have h1 := p.isLt
  have h2 := q.isLt
  calc p.val * cols + q.val < p.val * cols + cols := by omega
    _ = (p.val + 1) * cols := by ring
    _ ≤ rows * cols := Nat.mul_le_mul_right _ h1

theorem matrix_slice (v : List ℝ) (k rows cols : Nat) (p : Fin rows) (q : Fin cols) :
    matrix rows cols ((v.drop k).take (rows * cols)) p q =
      v.getD (k + (p.val * cols + q.val)) 0 :=
  slice_getD v (entry_lt p q)

/-- How many numbers an activation module contributes to the flat vector. -/
def Spec.actParams (k : ActKind) : Nat := if k = .gaussian then 2 else 0

/-- The lengths of the tensors of a network. -/
def Spec.shape (k : ActKind) (ext int hid : Nat) : List Nat :=
  if k = .gaussian then [hid * (ext + int), 1, 1, hid * hid, 1, 1, ext * hid]
  else [hid * (ext + int), hid * hid, ext * hid]

theorem initialTensors_shape (k : ActKind) (d₁ d₂ d₃ : List ℝ) (h₁ : d₁.length = hid * (ext + int))
    (h₂ : d₂.length = hid * hid) (h₃ : d₃.length = ext * hid) :
    (initialTensors k d₁ d₂ d₃).map List.length = Spec.shape k ext int hid := by
  cases k <;> simp [initialTensors, ActKind.tensors, Spec.shape, h₁, h₂, h₃]

/-- C111: how many numbers `get_params` returns for a network: the three weight matrices, two for
each Gaussian activation, and the kernel parameters. -/
theorem network_params_length (o : NCAObj) (k : ActKind) (l : List ℝ)
    (hs : o.tensors.map List.length = Spec.shape k ext int hid) (hl : o.kernelParams = .vec l) :
    o.getParams.length = hid * (ext + int) + hid * hid + ext * hid + 2 * Spec.actParams k +
      l.length := by
  have h1 : (readTensors o.tensors).length = (Spec.shape k ext int hid).sum := by
    rw [readTensors, List.length_flatten, hs]
  rw [NCAObj.getParams, hl, List.length_append, h1]
  unfold Spec.shape Spec.actParams
  split <;> simp <;> ring

theorem tensors_three {ts : List (List ℝ)} {a b c : Nat} (h : ts.map List.length = [a, b, c]) :
    ∃ x y z, ts = [x, y, z] ∧ x.length = a ∧ y.length = b ∧ z.length = c := by
  simp only [List.map_eq_cons_iff, List.map_eq_nil_iff] at h
  obtain ⟨x, _, rfl, hx, y, _, rfl, hy, z, _, rfl, hz, rfl⟩ := h
  exact ⟨x, y, z, rfl, hx, hy, hz⟩

theorem tensors_seven {ts : List (List ℝ)} {a b c : Nat}
    (h : ts.map List.length = [a, 1, 1, b, 1, 1, c]) :
    ∃ x m₁ s₁ y m₂ s₂ z, ts = [x, [m₁], [s₁], y, [m₂], [s₂], z] ∧ x.length = a ∧ y.length = b ∧
      z.length = c := by
  simp only [List.map_eq_cons_iff, List.map_eq_nil_iff, List.length_eq_one_iff] at h
  obtain ⟨x, _, rfl, hx, _, _, rfl, ⟨m₁, rfl⟩, _, _, rfl, ⟨s₁, rfl⟩, y, _, rfl, hy, _, _, rfl,
    ⟨m₂, rfl⟩, _, _, rfl, ⟨s₂, rfl⟩, z, _, rfl, hz, rfl⟩ := h
  exact ⟨x, m₁, s₁, y, m₂, s₂, z, rfl, hx, hy, hz⟩

/-- C111: what every number of the flat vector means.  After `set_params` of a vector `v` the first
`hid (ext + int)` entries are the first weight matrix row by row, then come the mean and width of the
first Gaussian (if the activation is one), the second matrix, the second Gaussian, the third matrix
and the kernel. -/
theorem network_layout (o : NCAObj) (k : ActKind) (l v : List ℝ) (mode : PadMode) (thr t : ℝ)
    (hs : o.tensors.map List.length = Spec.shape k ext int hid) (hl : o.kernelParams = .vec l)
    (hm : Spec.MixtureLength l.length) (hr : o.kernelRadius ≠ 0)
    (hv : hid * (ext + int) + hid * hid + ext * hid + 2 * Spec.actParams k + l.length ≤ v.length) :
    ∃ o' ca, o.setParams v = (o', none) ∧ o'.automaton k ext int hid mode thr t = some ca ∧
      (∀ p q, ca.w₁ p q = v.getD (p.val * (ext + int) + q.val) 0) ∧
      (∀ x, ca.act₁ x = k.eval (v.getD (hid * (ext + int)) 0) (v.getD (hid * (ext + int) + 1) 0) x) ∧
      (∀ p q, ca.w₂ p q =
        v.getD (hid * (ext + int) + Spec.actParams k + (p.val * hid + q.val)) 0) ∧
      (∀ x, ca.act₂ x = k.eval
        (v.getD (hid * (ext + int) + 2 + hid * hid) 0)
        (v.getD (hid * (ext + int) + 2 + hid * hid + 1) 0) x) ∧
      (∀ p q, ca.w₃ p q = v.getD (hid * (ext + int) + hid * hid + 2 * Spec.actParams k +
        (p.val * hid + q.val)) 0) ∧
      (∃ κ, gaussianMixtureKernel o.kernelRadius ((v.drop (hid * (ext + int) + hid * hid +
          ext * hid + 2 * Spec.actParams k)).take l.length) = .ok κ ∧
        ca.nbL = .ofKernel ext int mode (2 * κ.1 + 1) κ.2) ∧
      ca.idL = identityLayer ext int mode ∧ ca.dt = o.dt ∧ ca.thr = thr ∧ ca.t = t := by
  by_cases hk : k = .gaussian
  · subst hk
    simp only [Spec.actParams, if_true, Spec.shape] at hs hv ⊢
    obtain ⟨x, m₁, s₁, y, m₂, s₂, z, ht, hx, hy, hz⟩ := tensors_seven hs
    set A := hid * (ext + int) with hA
    set B := hid * hid with hB
    set C := ext * hid with hC
    have hdrop : ((v.drop (A + B + C + 2 * 2)).take l.length).length = l.length := by
      rw [List.length_take, List.length_drop]; omega
    obtain ⟨κ, hκ⟩ := (mixture_kernel_iff o.kernelRadius
      ((v.drop (A + B + C + 2 * 2)).take l.length)).2 ⟨by rw [hdrop]; exact hm, hr⟩
    have hw : writeTensors o.tensors v =
        ([(v.drop 0).take A, [v.getD A 0], [v.getD (A + 1) 0], (v.drop (A + 2)).take B,
          [v.getD (A + 2 + B) 0], [v.getD (A + 2 + B + 1) 0], (v.drop (A + B + 2 * 2)).take C],
          .ok (v.drop (A + B + C + 2 * 2))) := by
      have e1 := slice_one v (k := A) (by omega)
      have e2 := slice_one v (k := A + 1) (by omega)
      have e3 := slice_one v (k := A + 2 + B) (by omega)
      have e4 := slice_one v (k := A + 2 + B + 1) (by omega)
      have f1 : A + 1 + 1 = A + 2 := by omega
      have f2 : A + 2 + B + 1 + 1 = A + B + 2 * 2 := by omega
      have f3 : A + B + 2 * 2 + C = A + B + C + 2 * 2 := by omega
      have l1 : min A v.length = A := by omega
      have l2 : min B (v.length - (A + 2)) = B := by omega
      have l3 : min C (v.length - (A + B + 2 * 2)) = C := by omega
      rw [ht]
      simp only [writeTensors, hx, hy, hz, List.length_cons, List.length_nil, Nat.zero_add,
        List.drop_drop, List.length_take, List.length_drop, f1, f2, f3, l1, l2, l3,
        if_true, e1, e2, e3, e4, List.drop_zero]
    have hset : o.setParams v = ({ o with
        tensors := [(v.drop 0).take A, [v.getD A 0], [v.getD (A + 1) 0], (v.drop (A + 2)).take B,
          [v.getD (A + 2 + B) 0], [v.getD (A + 2 + B + 1) 0], (v.drop (A + B + 2 * 2)).take C]
        kernelParams := .vec ((v.drop (A + B + C + 2 * 2)).take l.length)
        nbKernel := κ, nbLayer := κ }, none) := by
      unfold NCAObj.setParams
      rw [hw]
      simp only [hl, hκ]
    refine ⟨_, _, hset, rfl, ?_, ?_, ?_, ?_, ?_, ⟨κ, hκ, rfl⟩, rfl, rfl, rfl, rfl⟩
    · intro p q
      refine (matrix_slice v 0 hid (ext + int) p q).trans ?_
      rw [Nat.zero_add]
    · intro x; rfl
    · intro p q; exact matrix_slice v (A + 2) hid hid p q
    · intro x; rfl
    · intro p q; exact matrix_slice v (A + B + 2 * 2) ext hid p q
  · simp only [Spec.actParams, if_neg hk, Spec.shape, Nat.mul_zero, Nat.add_zero] at hs hv ⊢
    obtain ⟨x, y, z, ht, hx, hy, hz⟩ := tensors_three hs
    set A := hid * (ext + int) with hA
    set B := hid * hid with hB
    set C := ext * hid with hC
    have hdrop : ((v.drop (A + B + C)).take l.length).length = l.length := by
      rw [List.length_take, List.length_drop]; omega
    obtain ⟨κ, hκ⟩ := (mixture_kernel_iff o.kernelRadius
      ((v.drop (A + B + C)).take l.length)).2 ⟨by rw [hdrop]; exact hm, hr⟩
    have hw : writeTensors o.tensors v =
        ([(v.drop 0).take A, (v.drop A).take B, (v.drop (A + B)).take C],
          .ok (v.drop (A + B + C))) := by
      have l1 : min A v.length = A := by omega
      have l2 : min B (v.length - A) = B := by omega
      have l3 : min C (v.length - (A + B)) = C := by omega
      rw [ht]
      simp only [writeTensors, hx, hy, hz, List.drop_drop, List.length_take, List.length_drop, l1,
        l2, l3, if_true, List.drop_zero]
    have hset : o.setParams v = ({ o with
        tensors := [(v.drop 0).take A, (v.drop A).take B, (v.drop (A + B)).take C]
        kernelParams := .vec ((v.drop (A + B + C)).take l.length)
        nbKernel := κ, nbLayer := κ }, none) := by
      unfold NCAObj.setParams
      rw [hw]
      simp only [hl, hκ]
    have hev : ∀ a b x, k.eval a b x = k.eval 0 0 x := by
      intro a b x; cases k <;> first | rfl | exact absurd rfl hk
    have hauto : NCAObj.automaton { o with
        tensors := [(v.drop 0).take A, (v.drop A).take B, (v.drop (A + B)).take C]
        kernelParams := .vec ((v.drop (A + B + C)).take l.length)
        nbKernel := κ, nbLayer := κ } k ext int hid mode thr t = some
          { idL := identityLayer ext int mode
            nbL := .ofKernel ext int mode (2 * κ.1 + 1) κ.2
            w₁ := matrix hid (ext + int) ((v.drop 0).take A), act₁ := k.eval 0 0
            w₂ := matrix hid hid ((v.drop A).take B), act₂ := k.eval 0 0
            w₃ := matrix ext hid ((v.drop (A + B)).take C)
            thr := thr, dt := o.dt, t := t } := by
      cases k <;> first | rfl | exact absurd rfl hk
    refine ⟨_, _, hset, hauto, ?_, ?_, ?_, ?_, ?_, ⟨κ, hκ, rfl⟩, rfl, rfl, rfl, rfl⟩
    · intro p q
      refine (matrix_slice v 0 hid (ext + int) p q).trans ?_
      rw [Nat.zero_add]
    · intro x; exact (hev _ _ x).symm
    · intro p q; exact matrix_slice v A hid hid p q
    · intro x; exact (hev _ _ x).symm
    · intro p q; exact matrix_slice v (A + B) ext hid p q

/-- One channel, one hidden unit, the default Gaussian, and a kernel of one peak. -/
noncomputable def Witness.tinyNet (κ : AnyKernel) : NCAObj where
  tensors := initialTensors .gaussian [1, 2] [3] [4]
  kernelRadius := 2
  kernelPeaks := 1
  kernelParams := .vec [1, 0.5, 0.15]
  nbKernel := κ
  nbLayer := κ
  nbCfg := none
  dt := 0.1

/-- Eleven numbers; the second weight is the fifth. -/
example (κ : AnyKernel) (v : List ℝ) (hv : v.length = 11) : ∃ o' ca,
    (Witness.tinyNet κ).setParams v = (o', none) ∧
    o'.automaton .gaussian 1 1 1 .circular 0.5 0 = some ca ∧ ca.w₂ 0 0 = v.getD 4 0 := by
  obtain ⟨o', ca, h1, h2, -, -, h3, -⟩ := network_layout (ext := 1) (int := 1) (hid := 1)
    (Witness.tinyNet κ) .gaussian [1, 0.5, 0.15] v .circular 0.5 0
    (initialTensors_shape _ _ _ _ rfl rfl rfl) rfl ⟨by decide, by decide⟩
    (by simp [Witness.tinyNet]) (by simp [hv, Spec.actParams])
  exact ⟨o', ca, h1, h2, h3 0 0⟩

/-- C111: saving a neural automaton and loading the config gives the same step function, with the
activation that the stored name selects, whatever weights were drawn in between. -/
theorem network_reload (o o₀ : NCAObj) (k : ActKind) (l : List ℝ) (h : Spec.NCASaveable o l)
    (fresh : List (List ℝ)) (hf : fresh.map List.length = o.tensors.map List.length)
    (mode : PadMode) (thr t : ℝ) :
    ∃ o', o₀.loadConfig fresh o.makeConfig.1 = (o', none) ∧
      o'.automaton (chooseAct (some k.savedName)) ext int hid mode thr t =
        o.automaton k ext int hid mode thr t := by
  obtain ⟨o', h1, h2, h3, h4, -⟩ := nca_config_roundtrip o o₀ l h fresh hf
  refine ⟨o', h1, ?_⟩
  rw [saved_activation]
  unfold NCAObj.automaton
  rw [h2, h3, h4]

/-! ## One cell -/

/-- The dropout factor of a hidden entry: 1 in evaluation mode. -/
def Spec.kept (drop : Option (Univ ℝ N hid H W)) (n : Fin N) (p : Fin hid) (i : Fin H) (j : Fin W) :
    ℝ := match drop with
  | none => 1
  | some m => m n p i j

theorem nca_square {ca : NCA ℝ ext int hid} {drop : Option (Univ ℝ N hid H W)}
    {u : Univ ℝ N ext H W} {r} (h : ca.forward drop u = .ok r) : ext = int := by
  obtain ⟨idn, nb, upd, -, -, h3, -⟩ := NCA.forward_ok h
  unfold NCA.updateUniverse at h3
  split at h3
  · assumption
  · cases h3

theorem nca_cell {ca : NCA ℝ ext ext hid} {drop : Option (Univ ℝ N hid H W)}
    {u : Univ ℝ N ext H W} {r} (h : ca.forward drop u = .ok r) :
    r.2 = { ca with t := ca.t + ca.dt } ∧ ∀ n e i j, r.1 n e i j =
      clamp01 (maskIf ca.thr u n e i j + ca.dt * Real.tanh (∑ q, ca.w₃ e q *
        ca.act₂ (∑ p, ca.w₂ q p * (ca.act₁ (∑ c, ca.w₁ p c *
          Fin.addCases (fun c => dot (ca.idL.taps (maskIf ca.thr u n) c i j))
            (fun c => dot (ca.nbL.taps (maskIf ca.thr u n) c i j)) c) *
          Spec.kept drop n p i j)))) := by
  obtain ⟨idn, nb, upd, h1, h2, h3, rfl⟩ := NCA.forward_ok h
  obtain ⟨_, rfl⟩ := apply_ok h1
  obtain ⟨_, rfl⟩ := apply_ok h2
  unfold NCA.updateUniverse at h3
  rw [dif_pos rfl] at h3
  refine ⟨rfl, fun n e i j => ?_⟩
  cases h3
  cases drop with
  | none =>
    simp only [eulerClamp, conv1x1, dot_finRange, Spec.kept, mul_one]
    rfl
  | some m =>
    simp only [eulerClamp, conv1x1, dot_finRange, Spec.kept]
    rfl

theorem padRead_nonneg {m : PadMode} {g : Grid ℝ H W} (hg : ∀ i j, 0 ≤ g i j) (a b : Int) :
    0 ≤ padRead m g a b := by
  unfold padRead
  split
  · exact hg _ _
  · exact le_refl _

theorem taps_nonneg {L : ConvLayer ℝ ext int} (hL : ∀ o c a b, 0 ≤ L.w o c a b)
    {x : Fin ext → Grid ℝ H W} (hx : ∀ e i j, 0 ≤ x e i j) (o : Fin int) (i : Fin H) (j : Fin W) :
    0 ≤ dot (L.taps x o i j) := by
  rw [conv_sum_pad]
  exact Finset.sum_nonneg fun c _ => Finset.sum_nonneg fun a _ => Finset.sum_nonneg fun b _ =>
    mul_nonneg (hL o c a b) (padRead_nonneg (hx _) _ _)

/-! ## Fresh networks only grow -/

/-- All weights of a network are nonnegative, its kernels too, and its activations keep nonnegative
numbers nonnegative. -/
structure Spec.Positive (ca : NCA ℝ ext int hid) : Prop where
  idL : ∀ o c a b, 0 ≤ ca.idL.w o c a b
  nbL : ∀ o c a b, 0 ≤ ca.nbL.w o c a b
  w₁ : ∀ p q, 0 ≤ ca.w₁ p q
  w₂ : ∀ p q, 0 ≤ ca.w₂ p q
  w₃ : ∀ p q, 0 ≤ ca.w₃ p q
  act₁ : ∀ x, 0 ≤ x → 0 ≤ ca.act₁ x
  act₂ : ∀ x, 0 ≤ x → 0 ≤ ca.act₂ x

theorem tanh_nonneg' {x : ℝ} (h : 0 ≤ x) : 0 ≤ Real.tanh x := by
  rw [Real.tanh_eq_sinh_div_cosh]
  exact div_nonneg (Real.sinh_nonneg_iff.2 h) (Real.cosh_pos x).le

theorem tanh_pos' {x : ℝ} (h : 0 < x) : 0 < Real.tanh x := by
  rw [Real.tanh_eq_sinh_div_cosh]
  exact div_pos (Real.sinh_pos_iff.2 h) (Real.cosh_pos x)

theorem tanh_mono' {x y : ℝ} (h : x ≤ y) : Real.tanh x ≤ Real.tanh y := by
  rw [Real.tanh_eq_sinh_div_cosh, Real.tanh_eq_sinh_div_cosh,
    div_le_div_iff₀ (Real.cosh_pos x) (Real.cosh_pos y)]
  have h1 : 0 ≤ Real.sinh (y - x) := Real.sinh_nonneg_iff.2 (by linarith)
  rw [Real.sinh_sub] at h1
  linarith

theorem clamp01_mono {x y : ℝ} (h : x ≤ y) : clamp01 x ≤ clamp01 y := by
  rw [clamp01_real, clamp01_real]
  exact max_le_max le_rfl (min_le_min le_rfl h)

theorem gaussianFn_plain (mu s x : ℝ) : gaussianFn mu s false x = bump mu s x := by
  simp [gaussianFn]

/-- Every activation of the dictionary maps nonnegative numbers to nonnegative numbers. -/
theorem eval_nonneg (k : ActKind) (mu s : ℝ) {x : ℝ} (h : 0 ≤ x) : 0 ≤ k.eval mu s x := by
  cases k with
  | tanh => exact tanh_nonneg' h
  | relu => exact le_max_right _ _
  | silu => exact mul_nonneg h (sigmoid_pos x).le
  | elu =>
    simp only [ActKind.eval]
    split
    · exact h
    · have := Real.one_le_exp h; linarith
  | sigmoid => exact (sigmoid_pos x).le
  | gaussian => simp only [ActKind.eval, gaussianFn_plain]; exact (bump_pos _ _ _).le
  | identity => exact h

theorem clamp01_ge {x y : ℝ} (h0 : y ≤ 1) (h : y ≤ x) : y ≤ clamp01 x := by
  rw [clamp01_real]
  exact (le_min h0 h).trans (le_max_right _ _)

theorem positive_never_shrinks {ca : NCA ℝ ext int hid} (hp : Spec.Positive ca) (hdt : 0 ≤ ca.dt)
    {drop : Option (Univ ℝ N hid H W)} (hd : ∀ n p i j, 0 ≤ Spec.kept drop n p i j)
    {u : Univ ℝ N ext H W} (hu : Within01 u) {r} (h : ca.forward drop u = .ok r)
    (n : Fin N) (e : Fin ext) (i : Fin H) (j : Fin W) : maskIf ca.thr u n e i j ≤ r.1 n e i j := by
  obtain rfl := nca_square h
  rw [(nca_cell h).2 n e i j]
  have hm : ∀ e i j, 0 ≤ maskIf ca.thr u n e i j ∧ maskIf ca.thr u n e i j ≤ 1 := by
    intro e i j
    rcases maskIf_cases ca.thr u n e i j with h | h <;> rw [h]
    · exact hu n e i j
    · exact ⟨le_refl _, zero_le_one⟩
  refine clamp01_ge (hm e i j).2 (le_add_of_nonneg_right (mul_nonneg hdt (tanh_nonneg' ?_)))
  refine Finset.sum_nonneg fun q _ => mul_nonneg (hp.w₃ e q) (hp.act₂ _ ?_)
  refine Finset.sum_nonneg fun p _ => mul_nonneg (hp.w₂ q p) (mul_nonneg (hp.act₁ _ ?_) (hd n p i j))
  refine Finset.sum_nonneg fun c _ => mul_nonneg (hp.w₁ p c) ?_
  refine Fin.addCases (fun c => ?_) (fun c => ?_) c
  · rw [Fin.addCases_left]; exact taps_nonneg hp.idL (fun e i j => (hm e i j).1) c i j
  · rw [Fin.addCases_right]; exact taps_nonneg hp.nbL (fun e i j => (hm e i j).1) c i j

theorem matrix_squares_nonneg (rows cols : Nat) (d : List ℝ) (p : Fin rows) (q : Fin cols) :
    0 ≤ matrix rows cols (d.map fun x => x ^ 2) p q := by
  unfold matrix
  rw [List.getD_eq_getElem?_getD, List.getElem?_map]
  cases d[p.val * cols + q.val]? with
  | none => simp
  | some x => simpa using sq_nonneg x

/-- A fresh network as an automaton. -/
theorem initial_automaton (o : NCAObj) (k : ActKind) (d₁ d₂ d₃ : List ℝ)
    (ho : o.tensors = initialTensors k d₁ d₂ d₃) (mode : PadMode) (thr t : ℝ) :
    o.automaton k ext int hid mode thr t = some
      { idL := identityLayer ext int mode
        nbL := .ofKernel ext int mode (2 * o.nbLayer.1 + 1) o.nbLayer.2
        w₁ := matrix hid (ext + int) (d₁.map fun x => x ^ 2), act₁ := k.eval 0 (0.1 ^ 2)
        w₂ := matrix hid hid (d₂.map fun x => x ^ 2), act₂ := k.eval 0 (0.1 ^ 2)
        w₃ := matrix ext hid (d₃.map fun x => x ^ 2)
        thr := thr, dt := o.dt, t := t } := by
  unfold NCAObj.automaton
  rw [ho]
  cases k <;> simp [initialTensors, ActKind.tensors] <;> rfl

theorem mixture_nonneg {r : Nat} {ps : List ℝ} {κ : AnyKernel}
    (h : gaussianMixtureKernel r ps = .ok κ) (a b : Fin (2 * κ.1 + 1)) : 0 ≤ κ.2 a b :=
  (kernel_normalised _ (by simp [radialNames]) κ h).1 a b

theorem identityKernel_nonneg (a b : Fin 3) : (0 : ℝ) ≤ identityKernel a b := by
  unfold identityKernel
  split <;> simp [Arith.one, Arith.zero]

/-- C111: a network as `initialize_weight_layer` leaves it never lets anything shrink.  Whatever
weights were drawn, whichever activation is used, with or without dropout (whose factors are not
negative), and with any kernel `get_gaussian_mixture_kernel` builds, no cell of a universe within
`[0, 1]` falls below its value after the alive mask. -/
theorem fresh_never_shrinks (o : NCAObj) (k : ActKind) (d₁ d₂ d₃ ps : List ℝ)
    (ho : o.tensors = initialTensors k d₁ d₂ d₃)
    (hκ : gaussianMixtureKernel o.kernelRadius ps = .ok o.nbLayer) (hdt : 0 ≤ o.dt)
    (mode : PadMode) (thr t : ℝ) {ca : NCA ℝ ext int hid}
    (hca : o.automaton k ext int hid mode thr t = some ca)
    (drop : Option (Univ ℝ N hid H W)) (hd : ∀ m, drop = some m → ∀ n p i j, 0 ≤ m n p i j)
    (u : Univ ℝ N ext H W) (hu : Within01 u) (r) (h : ca.forward drop u = .ok r)
    (n : Fin N) (e : Fin ext) (i : Fin H) (j : Fin W) : maskIf thr u n e i j ≤ r.1 n e i j := by
  rw [initial_automaton o k d₁ d₂ d₃ ho] at hca
  cases hca
  refine positive_never_shrinks ?_ hdt ?_ hu h n e i j
  · exact {
      idL := fun _ _ a b => identityKernel_nonneg a b
      nbL := fun _ _ a b => mixture_nonneg hκ a b
      w₁ := matrix_squares_nonneg _ _ _
      w₂ := matrix_squares_nonneg _ _ _
      w₃ := matrix_squares_nonneg _ _ _
      act₁ := fun x hx => eval_nonneg k _ _ hx
      act₂ := fun x hx => eval_nonneg k _ _ hx }
  · intro n p i j
    cases drop with
    | none => exact zero_le_one
    | some m => exact hd m rfl n p i j

/-! ## Gaussian and sigmoid networks fill the universe -/

/-- The two activations that are positive everywhere. -/
def Spec.Lit (k : ActKind) : Prop := k = .gaussian ∨ k = .sigmoid

theorem sigmoid_continuous : Continuous sigmoid := by
  have h : ∀ x : ℝ, 1 + Real.exp (-x) ≠ 0 := fun x => by have := Real.exp_pos (-x); linarith
  unfold sigmoid
  exact continuous_const.div (continuous_const.add (Real.continuous_exp.comp continuous_neg)) h

theorem bump_continuous (mu s : ℝ) : Continuous (bump mu s) := by
  unfold bump
  fun_prop

theorem lit_facts {k : ActKind} (hk : Spec.Lit k) (mu s : ℝ) :
    (∀ x, 0 < k.eval mu s x) ∧ (∀ x, k.eval mu s x ≤ 1) ∧ Continuous (k.eval mu s) := by
  rcases hk with rfl | rfl
  · have e : ActKind.gaussian.eval mu s = bump mu s := funext fun x => gaussianFn_plain mu s x
    rw [e]
    exact ⟨bump_pos mu s, bump_le_one mu s, bump_continuous mu s⟩
  · exact ⟨sigmoid_pos, fun x => (sigmoid_lt_one x).le, sigmoid_continuous⟩

theorem positive_floor {f : ℝ → ℝ} (hf : Continuous f) (hp : ∀ x, 0 < f x) (B : ℝ) :
    ∃ δ, 0 < δ ∧ ∀ x, |x| ≤ B → δ ≤ f x := by
  rcases le_or_gt 0 B with hB | hB
  · obtain ⟨x₀, -, h⟩ := (isCompact_Icc (a := -B) (b := B)).exists_isMinOn
      ⟨0, by constructor <;> linarith⟩ hf.continuousOn
    exact ⟨f x₀, hp x₀, fun x hx => h (abs_le.1 hx)⟩
  · exact ⟨1, one_pos, fun x hx => absurd (abs_nonneg x) (by linarith)⟩

/-- Whatever the first layers see, the output of a network with bounded positive activations and
nonnegative output weights stays above a positive number. -/
theorem lit_floor (ca : NCA ℝ ext int hid) (h1 : ∀ x, 0 ≤ ca.act₁ x ∧ ca.act₁ x ≤ 1)
    (h2 : ∀ x, 0 < ca.act₂ x) (hc : Continuous ca.act₂) (hw : ∀ e q, 0 ≤ ca.w₃ e q)
    (hpos : ∀ e, ∃ q, 0 < ca.w₃ e q) (M : ℝ) :
    ∃ g, 0 < g ∧ ∀ {N H W : Nat} (drop : Option (Univ ℝ N hid H W)),
      (∀ n p i j, 0 ≤ Spec.kept drop n p i j ∧ Spec.kept drop n p i j ≤ M) →
      ∀ (t : ℝ) (u : Univ ℝ N ext H W) r, { ca with t := t }.forward drop u = .ok r →
      ∀ n e i j, clamp01 (maskIf ca.thr u n e i j + ca.dt * g) ≤ r.1 n e i j ∨ ca.dt < 0 := by
  obtain ⟨δ, hδ, hfl⟩ := positive_floor hc h2 (∑ q, ∑ p, |ca.w₂ q p| * M)
  have hsum : ∀ e, 0 < ∑ q, ca.w₃ e q * δ := fun e => by
    obtain ⟨q, hq⟩ := hpos e
    exact Finset.sum_pos' (fun q _ => mul_nonneg (hw e q) hδ.le) ⟨q, Finset.mem_univ _, mul_pos hq hδ⟩
  have hg : ∃ g, 0 < g ∧ ∀ e, g ≤ Real.tanh (∑ q, ca.w₃ e q * δ) := by
    rcases Nat.eq_zero_or_pos ext with h0 | h0
    · exact ⟨1, one_pos, fun e => by subst h0; exact e.elim0⟩
    · have : Nonempty (Fin ext) := ⟨⟨0, h0⟩⟩
      obtain ⟨e₀, h⟩ := Finite.exists_min fun e : Fin ext => Real.tanh (∑ q, ca.w₃ e q * δ)
      exact ⟨_, tanh_pos' (hsum e₀), h⟩
  obtain ⟨g, hg0, hg⟩ := hg
  refine ⟨g, hg0, fun {N H W} drop hd t u r h n e i j => ?_⟩
  rcases lt_or_ge ca.dt 0 with hdt | hdt
  · exact .inr hdt
  left
  obtain rfl := nca_square h
  rw [(nca_cell h).2 n e i j]
  refine clamp01_mono (add_le_add (le_refl _) (mul_le_mul_of_nonneg_left ?_ hdt))
  refine (hg e).trans (tanh_mono' (Finset.sum_le_sum fun q _ =>
    mul_le_mul_of_nonneg_left (hfl _ ?_) (hw e q)))
  have hM : 0 ≤ M ∨ hid = 0 := by
    rcases Nat.eq_zero_or_pos hid with h0 | h0
    · exact .inr h0
    · exact .inl ((hd n ⟨0, h0⟩ i j).1.trans (hd n ⟨0, h0⟩ i j).2)
  have hM0 : 0 ≤ M := hM.resolve_right (fun h0 => by subst h0; exact q.elim0)
  calc |_| ≤ ∑ p, |ca.w₂ q p * (ca.act₁ _ * Spec.kept drop n p i j)| :=
        Finset.abs_sum_le_sum_abs _ _
    _ ≤ ∑ p, |ca.w₂ q p| * M := by
        refine Finset.sum_le_sum fun p _ => ?_
        rw [abs_mul]
        refine mul_le_mul_of_nonneg_left ?_ (abs_nonneg _)
        rw [abs_of_nonneg (mul_nonneg (h1 _).1 (hd n p i j).1)]
        calc _ ≤ 1 * M := mul_le_mul (h1 _).2 (hd n p i j).2 (hd n p i j).1 zero_le_one
          _ = M := one_mul M
    _ ≤ ∑ q, ∑ p, |ca.w₂ q p| * M :=
        Finset.single_le_sum (f := fun q => ∑ p, |ca.w₂ q p| * M)
          (fun q _ => Finset.sum_nonneg fun p _ => mul_nonneg (abs_nonneg _) hM0)
          (Finset.mem_univ q)

/-- A run: every step is one call of `forward`, each with a dropout mask of its own (or none). -/
def Spec.Run (s : ℕ → NCA ℝ ext int hid) (drop : ℕ → Option (Univ ℝ N hid H W))
    (u : ℕ → Univ ℝ N ext H W) : Prop :=
  ∀ k, (s k).forward (drop k) (u k) = .ok (u (k + 1), s (k + 1))

theorem run_state {s : ℕ → NCA ℝ ext int hid} {drop : ℕ → Option (Univ ℝ N hid H W)}
    {u : ℕ → Univ ℝ N ext H W} (h : Spec.Run s drop u) (k : ℕ) :
    ∃ t, s k = { s 0 with t := t } := by
  induction k with
  | zero => exact ⟨(s 0).t, rfl⟩
  | succ k ih =>
    obtain ⟨t, ht⟩ := ih
    obtain ⟨_, _, _, _, _, _, he⟩ := NCA.forward_ok (h k)
    refine ⟨add (s k).t (s k).dt, ?_⟩
    have h2 : s (k + 1) = { s k with t := add (s k).t (s k).dt } := (Prod.ext_iff.1 he).2
    rw [h2, ht]

/-- C111: networks whose activations are positive and bounded (Gaussian, sigmoid) and whose output
weights are not negative, with one positive weight for every channel, fill the universe: after a
number of steps that depends on neither the universe nor its size nor the dropout masks, every cell
is 1 and stays 1. -/
theorem lit_fills (ca : NCA ℝ ext int hid) (h1 : ∀ x, 0 ≤ ca.act₁ x ∧ ca.act₁ x ≤ 1)
    (h2 : ∀ x, 0 < ca.act₂ x) (hc : Continuous ca.act₂) (hw : ∀ e q, 0 ≤ ca.w₃ e q)
    (hpos : ∀ e, ∃ q, 0 < ca.w₃ e q) (hdt : 0 < ca.dt) (hext : ext < 4) (M : ℝ) :
    ∃ n₀, ∀ {N H W : Nat} (s : ℕ → NCA ℝ ext int hid) (drop : ℕ → Option (Univ ℝ N hid H W))
      (u : ℕ → Univ ℝ N ext H W), s 0 = ca → Spec.Run s drop u →
      (∀ k n p i j, 0 ≤ Spec.kept (drop k) n p i j ∧ Spec.kept (drop k) n p i j ≤ M) →
      Within01 (u 0) → ∀ k, n₀ ≤ k → u k = fun _ _ _ _ => 1 := by
  obtain ⟨g, hg, hstep⟩ := lit_floor ca h1 h2 hc hw hpos M
  have hgd : 0 < ca.dt * g := mul_pos hdt hg
  obtain ⟨n₀, hn₀⟩ := exists_nat_ge (1 / (ca.dt * g))
  have hone : 1 ≤ (n₀ : ℝ) * (ca.dt * g) := by
    rw [div_le_iff₀ hgd] at hn₀; exact hn₀
  refine ⟨n₀, fun {N H W} s drop u h0 hr hd hu k hk => ?_⟩
  have key : ∀ k : ℕ, ∀ n e i j, 0 ≤ u k n e i j ∧ u k n e i j ≤ 1 ∧
      min 1 ((k : ℝ) * (ca.dt * g)) ≤ u k n e i j := by
    intro k
    induction k with
    | zero =>
      intro n e i j
      refine ⟨(hu n e i j).1, (hu n e i j).2, ?_⟩
      simpa using (hu n e i j).1
    | succ k ih =>
      intro n e i j
      obtain ⟨t, ht⟩ := run_state hr k
      have hk := hr k
      rw [ht, h0] at hk
      rcases hstep (drop k) (hd k) t (u k) _ hk n e i j with h | h
      swap; · linarith
      obtain rfl := nca_square hk
      have hcell := (nca_cell hk).2 n e i j
      dsimp only at h hcell
      rw [maskIf_small hext] at h
      have hb : 0 ≤ u (k + 1) n e i j ∧ u (k + 1) n e i j ≤ 1 := by
        rw [hcell, clamp01_real]
        exact ⟨le_max_left _ _, max_le zero_le_one (min_le_left _ _)⟩
      refine ⟨hb.1, hb.2, le_trans ?_ h⟩
      obtain ⟨a0, a1, a2⟩ := ih n e i j
      rw [clamp01_real]
      refine le_trans ?_ (le_max_right _ _)
      refine le_min (min_le_left _ _) ?_
      push_cast
      rcases min_cases 1 ((k : ℝ) * (ca.dt * g)) with ⟨h3, h4⟩ | ⟨h3, h4⟩ <;> rw [h3] at a2
      · exact (min_le_left _ _).trans (by linarith)
      · exact (min_le_right _ _).trans (by linarith)
  funext n e i j
  obtain ⟨-, a1, a2⟩ := key k n e i j
  have : 1 ≤ (k : ℝ) * (ca.dt * g) := hone.trans
    (mul_le_mul_of_nonneg_right (by exact_mod_cast hk) hgd.le)
  rw [min_eq_left this] at a2
  exact le_antisymm a1 a2

theorem matrix_squares_pos {rows cols : Nat} {d : List ℝ} {p : Fin rows} {q : Fin cols}
    (h : d.getD (p.val * cols + q.val) 0 ≠ 0) :
    0 < matrix rows cols (d.map fun x => x ^ 2) p q := by
  unfold matrix
  rw [List.getD_eq_getElem?_getD] at h ⊢
  rw [List.getElem?_map]
  cases hd : d[p.val * cols + q.val]? with
  | none => rw [hd] at h; simp at h
  | some x => rw [hd] at h; simpa using pow_pos (abs_pos.2 (by simpa using h)) 2 |>.trans_eq (sq_abs x)

/-- C111: a fresh neural automaton with the default activation (or the sigmoid) fills every universe
of up to three channels, dropout or not, as soon as every channel has drawn one output weight that
is not 0. -/
theorem fresh_fills (o : NCAObj) (k : ActKind) (hk : Spec.Lit k) (d₁ d₂ d₃ : List ℝ)
    (ho : o.tensors = initialTensors k d₁ d₂ d₃) (hdt : 0 < o.dt) (hext : ext < 4)
    (hpos : ∀ e : Fin ext, ∃ q : Fin hid, d₃.getD (e.val * hid + q.val) 0 ≠ 0)
    (mode : PadMode) (thr t : ℝ) {ca : NCA ℝ ext int hid}
    (hca : o.automaton k ext int hid mode thr t = some ca) (M : ℝ) :
    ∃ n₀, ∀ {N H W : Nat} (s : ℕ → NCA ℝ ext int hid) (drop : ℕ → Option (Univ ℝ N hid H W))
      (u : ℕ → Univ ℝ N ext H W), s 0 = ca → Spec.Run s drop u →
      (∀ k n p i j, 0 ≤ Spec.kept (drop k) n p i j ∧ Spec.kept (drop k) n p i j ≤ M) →
      Within01 (u 0) → ∀ k, n₀ ≤ k → u k = fun _ _ _ _ => 1 := by
  rw [initial_automaton o k d₁ d₂ d₃ ho] at hca
  cases hca
  obtain ⟨f1, f2, f3⟩ := lit_facts hk 0 (0.1 ^ 2)
  exact lit_fills _ (fun x => ⟨(f1 x).le, f2 x⟩) f1 f3 (matrix_squares_nonneg _ _ _)
    (fun e => (hpos e).imp fun q hq => matrix_squares_pos hq) hdt hext M

/-! ## Something from nothing -/

/-- C111: with `Tanh`, `ReLU`, `SiLU`, `ELU` or `Identity` an empty universe stays empty, whatever the
weights. -/
theorem empty_stays_empty (o : NCAObj) (k : ActKind) (hk : ¬ Spec.Lit k) (mode : PadMode)
    (thr t : ℝ) {ca : NCA ℝ ext int hid} (hca : o.automaton k ext int hid mode thr t = some ca)
    (drop : Option (Univ ℝ N hid H W)) (r)
    (h : ca.forward drop (fun _ _ _ _ => 0) = .ok r) : r.1 = fun _ _ _ _ => 0 := by
  have hz : ∀ mu s, k.eval mu s 0 = 0 := by
    intro mu s
    cases k with
    | gaussian => exact absurd (.inl rfl) hk
    | sigmoid => exact absurd (.inr rfl) hk
    | _ => simp [ActKind.eval]
  have hf : ca.act₁ 0 = 0 ∧ ca.act₂ 0 = 0 := by
    unfold NCAObj.automaton at hca
    split at hca
    · exact absurd (.inl rfl) hk
    · exact absurd (.inl rfl) hk
    · cases hca; exact ⟨hz _ _, hz _ _⟩
    · cases hca
  obtain rfl := nca_square h
  funext n e i j
  rw [(nca_cell h).2 n e i j, maskIf_zero]
  have hin : ∀ c : Fin (ext + ext), (Fin.addCases
      (fun c => dot (ca.idL.taps (fun _ _ _ => (0 : ℝ)) c i j))
      (fun c => dot (ca.nbL.taps (fun _ _ _ => (0 : ℝ)) c i j)) c : ℝ) = 0 := by
    intro c
    refine Fin.addCases (fun c => ?_) (fun c => ?_) c
    · rw [Fin.addCases_left]; exact taps_zero _ c i j
    · rw [Fin.addCases_right]; exact taps_zero _ c i j
  simp only [hin, mul_zero, Finset.sum_const_zero, hf.1, zero_mul, hf.2, Real.tanh_zero, add_zero]
  exact clamp01_of_mem (le_refl _) zero_le_one

/-- C111: a fresh Gaussian or sigmoid network makes something out of nothing: one step after the
empty universe every cell is alive. -/
theorem empty_lights_up (o : NCAObj) (k : ActKind) (hk : Spec.Lit k) (d₁ d₂ d₃ : List ℝ)
    (ho : o.tensors = initialTensors k d₁ d₂ d₃) (hdt : 0 < o.dt)
    (hpos : ∀ e : Fin ext, ∃ q : Fin hid, d₃.getD (e.val * hid + q.val) 0 ≠ 0)
    (mode : PadMode) (thr t : ℝ) {ca : NCA ℝ ext int hid}
    (hca : o.automaton k ext int hid mode thr t = some ca)
    (drop : Option (Univ ℝ N hid H W)) (M : ℝ)
    (hd : ∀ n p i j, 0 ≤ Spec.kept drop n p i j ∧ Spec.kept drop n p i j ≤ M) (r)
    (h : ca.forward drop (fun _ _ _ _ => 0) = .ok r)
    (n : Fin N) (e : Fin ext) (i : Fin H) (j : Fin W) : 0 < r.1 n e i j := by
  rw [initial_automaton o k d₁ d₂ d₃ ho] at hca
  cases hca
  obtain ⟨f1, f2, f3⟩ := lit_facts hk 0 (0.1 ^ 2)
  obtain ⟨g, hg, hstep⟩ := lit_floor { 
        idL := identityLayer ext int mode
        nbL := .ofKernel ext int mode (2 * o.nbLayer.1 + 1) o.nbLayer.2
        w₁ := matrix hid (ext + int) (d₁.map fun x => x ^ 2), act₁ := k.eval 0 (0.1 ^ 2)
        w₂ := matrix hid hid (d₂.map fun x => x ^ 2), act₂ := k.eval 0 (0.1 ^ 2)
        w₃ := matrix ext hid (d₃.map fun x => x ^ 2)
        thr := thr, dt := o.dt, t := t } (fun x => ⟨(f1 x).le, f2 x⟩) f1 f3
    (matrix_squares_nonneg _ _ _) (fun e => (hpos e).imp fun q hq => matrix_squares_pos hq) M
  rcases hstep drop hd t _ r h n e i j with h | h
  · refine lt_of_lt_of_le ?_ h
    dsimp only
    rw [maskIf_zero, clamp01_real]
    refine lt_of_lt_of_le ?_ (le_max_right _ _)
    exact lt_min one_pos (by simpa using mul_pos hdt hg)
  · exact absurd h (not_lt.2 hdt.le)

/-! ## The default automaton -/

/-- C111: `NCA()` as constructed: for every radius and number of peaks other than 0 it exists, has
the weights squared, a kernel as above, and a step size of 0.1. -/
theorem default_network (k : ActKind) (radius peaks : Nat) (d₁ d₂ d₃ : List ℝ) :
    (∃ o, NCAObj.defaultInit k radius peaks d₁ d₂ d₃ = .ok o) ↔ radius ≠ 0 ∧ peaks ≠ 0 := by
  have hlen : (defaultPeaks peaks).length = peaks * 3 := by
    simp [defaultPeaks, List.length_flatten]
  constructor
  · rintro ⟨o, h⟩
    unfold NCAObj.defaultInit at h
    split at h
    · cases h
    · rename_i hp
      obtain ⟨κ, hκ, -⟩ := bind_ok h
      exact ⟨((mixture_kernel_iff _ _).1 ⟨κ, hκ⟩).2, hp⟩
  · rintro ⟨hr, hp⟩
    obtain ⟨κ, hκ⟩ := (mixture_kernel_iff radius (defaultPeaks peaks)).2
      ⟨by rw [hlen]; exact ⟨by omega, by omega⟩, hr⟩
    unfold NCAObj.defaultInit
    rw [if_neg hp, hκ]
    exact ⟨_, rfl⟩

theorem default_network_facts {k : ActKind} {radius peaks : Nat} {d₁ d₂ d₃ : List ℝ} {o : NCAObj}
    (h : NCAObj.defaultInit k radius peaks d₁ d₂ d₃ = .ok o) :
    o.tensors = initialTensors k d₁ d₂ d₃ ∧
      gaussianMixtureKernel o.kernelRadius (defaultPeaks peaks) = .ok o.nbLayer ∧ o.dt = 0.1 ∧
      o.kernelParams = .vec (defaultPeaks peaks) ∧ o.kernelRadius = radius := by
  unfold NCAObj.defaultInit at h
  split at h
  · cases h
  · obtain ⟨κ, hκ, h⟩ := bind_ok h
    cases h
    exact ⟨rfl, hκ, rfl, rfl, rfl⟩

/-- C111: the automaton `NCA()` constructs, with its default Gaussian activation and whatever weights
torch draws: it never lets a cell shrink and fills the universe. -/
theorem default_fills (radius peaks : Nat) (d₁ d₂ d₃ : List ℝ) {o : NCAObj}
    (h : NCAObj.defaultInit (chooseAct (some "Gaussian".toList)) radius peaks d₁ d₂ d₃ = .ok o)
    (hext : ext < 4)
    (hpos : ∀ e : Fin ext, ∃ q : Fin hid, d₃.getD (e.val * hid + q.val) 0 ≠ 0)
    (mode : PadMode) (thr t : ℝ) :
    ∃ ca : NCA ℝ ext int hid, o.automaton .gaussian ext int hid mode thr t = some ca ∧
      ∃ n₀, ∀ {N H W : Nat} (s : ℕ → NCA ℝ ext int hid) (drop : ℕ → Option (Univ ℝ N hid H W))
        (u : ℕ → Univ ℝ N ext H W), s 0 = ca → Spec.Run s drop u →
        (∀ k n p i j, 0 ≤ Spec.kept (drop k) n p i j ∧ Spec.kept (drop k) n p i j ≤ 10 / 9) →
        Within01 (u 0) →
        (∀ k n e i j, u k n e i j ≤ u (k + 1) n e i j) ∧ ∀ k, n₀ ≤ k → u k = fun _ _ _ _ => 1 := by
  have hg : chooseAct (some "Gaussian".toList) = .gaussian := by decide
  rw [hg] at h
  obtain ⟨f1, f2, f3, -⟩ := default_network_facts h
  have hdt : 0 < o.dt := by rw [f3]; norm_num
  have hca := initial_automaton (ext := ext) (int := int) (hid := hid) o .gaussian d₁ d₂ d₃ f1 mode
    thr t
  obtain ⟨n₀, hn⟩ := fresh_fills o .gaussian (.inl rfl) d₁ d₂ d₃ f1 hdt hext hpos mode thr t hca
    (10 / 9)
  refine ⟨_, hca, n₀, fun {N H W} s drop u h0 hr hd hu => ⟨?_, hn s drop u h0 hr hd hu⟩⟩
  have hin : ∀ k, Within01 (u k) := by
    intro k
    cases k with
    | zero => exact hu
    | succ k =>
      obtain rfl := nca_square (hr k)
      intro n e i j
      have hcell := (nca_cell (hr k)).2 n e i j
      dsimp only at hcell
      rw [hcell, clamp01_real]
      exact ⟨le_max_left _ _, max_le zero_le_one (min_le_left _ _)⟩
  intro k n e i j
  obtain ⟨t', ht⟩ := run_state hr k
  have hk := hr k
  rw [ht, h0] at hk
  have hca' := initial_automaton (ext := ext) (int := int) (hid := hid) o .gaussian d₁ d₂ d₃ f1 mode
    thr t'
  have := fresh_never_shrinks o .gaussian d₁ d₂ d₃ _ f1 f2 hdt.le mode thr t' hca' (drop k)
    (fun m hm n p i j => by have := (hd k n p i j).1; rw [hm] at this; exact this) (u k) (hin k) _ hk
    n e i j
  rwa [maskIf_small hext] at this

/-- Runs exist: on a torus at least as large as the kernel's radius every call succeeds. -/
theorem run_exists {ca : NCA ℝ ext ext hid} (h1 : ca.idL = identityLayer ext ext .circular)
    {r : Nat} {κ : Fin (2 * r + 1) → Fin (2 * r + 1) → ℝ}
    (h2 : ca.nbL = .ofKernel ext ext .circular (2 * r + 1) κ) (hH : 1 ≤ H ∧ r ≤ H)
    (hW : 1 ≤ W ∧ r ≤ W) (drop : ℕ → Option (Univ ℝ N hid H W)) (u₀ : Univ ℝ N ext H W) :
    ∃ s u, s 0 = ca ∧ u 0 = u₀ ∧ Spec.Run s drop u := by
  have hstep : ∀ t d (u : Univ ℝ N ext H W), ∃ u', { ca with t := t }.forward d u =
      .ok (u', { ca with t := t + ca.dt }) := by
    intro t d u
    have a1 : ca.idL.k % 2 = 1 ∧ padOK ca.idL.mode ca.idL.pad H ∧ padOK ca.idL.mode ca.idL.pad W := by
      rw [h1]
      simp [identityLayer, ConvLayer.ofKernel, ConvLayer.pad, padOK]
      exact ⟨hH.1, hW.1⟩
    have a2 : ca.nbL.k % 2 = 1 ∧ padOK ca.nbL.mode ca.nbL.pad H ∧ padOK ca.nbL.mode ca.nbL.pad W := by
      have hp : (2 * r + 1 - 1) / 2 = r := by omega
      rw [h2]
      refine ⟨by show (2 * r + 1) % 2 = 1; omega, ?_, ?_⟩
      · exact decide_eq_true (p := (2 * r + 1 - 1) / 2 ≤ H) (by omega)
      · exact decide_eq_true (p := (2 * r + 1 - 1) / 2 ≤ W) (by omega)
    unfold NCA.forward ConvLayer.apply
    dsimp only
    rw [if_pos a1, if_pos a2]
    unfold NCA.updateUniverse
    simp only [Bind.bind, Except.bind, dite_true]
    exact ⟨_, rfl⟩
  choose f hf using hstep
  let g : ℕ → ℝ × Univ ℝ N ext H W := fun k =>
    k.rec (ca.t, u₀) fun k x => (x.1 + ca.dt, f x.1 (drop k) x.2)
  exact ⟨fun k => { ca with t := (g k).1 }, fun k => (g k).2, rfl, rfl, fun k => hf _ _ _⟩

/-- The tiny network with its own kernel on a torus of 3 by 3: there is a run from the empty universe
with some dropout, and after finitely many steps everything is alive. -/
example : ∃ κ ca n₀ s u, (Witness.tinyNet κ).automaton .gaussian 1 1 1 .circular 0.5 0 = some ca ∧
    s 0 = ca ∧ Spec.Run (N := 1) (H := 3) (W := 3) s
      (fun k => if k % 2 = 0 then none else some fun _ _ _ _ => 0) u ∧
    (u 0 = fun _ _ _ _ => 0) ∧ (∀ n e i j, 0 < u 1 n e i j) ∧ u n₀ = fun _ _ _ _ => 1 := by
  obtain ⟨κ, hκ⟩ := (mixture_kernel_iff 2 [1, 0.5, 0.15]).2 ⟨⟨by decide, by decide⟩, by decide⟩
  have hκ1 : κ.1 = 2 := by
    obtain ⟨r, f, hr, -, rfl⟩ := getKernel_radial (by simp [radialNames]) hκ
    cases hr; rfl
  have hca := initial_automaton (ext := 1) (int := 1) (hid := 1) (Witness.tinyNet κ) .gaussian
    [1, 2] [3] [4] rfl .circular 0.5 0
  have hdt : 0 < (Witness.tinyNet κ).dt := by norm_num [Witness.tinyNet]
  have hpos : ∀ e : Fin 1, ∃ q : Fin 1, [(4 : ℝ)].getD (e.val * 1 + q.val) 0 ≠ 0 := fun e =>
    ⟨0, by have : e = 0 := Subsingleton.elim _ _; subst this; norm_num⟩
  have hd : ∀ k n p i j, 0 ≤ Spec.kept (N := 1) (hid := 1) (H := 3) (W := 3)
      (if k % 2 = 0 then none else some fun _ _ _ _ => 0) n p i j ∧
      Spec.kept (N := 1) (hid := 1) (H := 3) (W := 3)
      (if k % 2 = 0 then none else some fun _ _ _ _ => 0) n p i j ≤ 10 / 9 := by
    intro k n p i j
    by_cases h : k % 2 = 0 <;> simp only [h, if_true, if_false, Spec.kept] <;> norm_num
  obtain ⟨s, u, h0, hu0, hr⟩ := run_exists (N := 1) (H := 3) (W := 3) (r := κ.1) (κ := κ.2)
    (ca := { idL := identityLayer 1 1 .circular
             nbL := .ofKernel 1 1 .circular (2 * κ.1 + 1) κ.2
             w₁ := matrix 1 2 ([1, 2].map fun x => x ^ 2)
             act₁ := ActKind.gaussian.eval 0 (0.1 ^ 2)
             w₂ := matrix 1 1 ([3].map fun x => x ^ 2)
             act₂ := ActKind.gaussian.eval 0 (0.1 ^ 2)
             w₃ := matrix 1 1 ([4].map fun x => x ^ 2)
             thr := 0.5, dt := 0.1, t := 0 }) rfl rfl ⟨by decide, by omega⟩ ⟨by decide, by omega⟩
    (fun k => if k % 2 = 0 then none else some fun _ _ _ _ => 0) (fun _ _ _ _ => 0)
  obtain ⟨n₀, hn⟩ := fresh_fills (Witness.tinyNet κ) .gaussian (.inl rfl) [1, 2] [3] [4] rfl hdt
    (by decide) hpos .circular 0.5 0 hca (10 / 9)
  refine ⟨κ, _, n₀, s, u, hca, h0, hr, hu0, fun n e i j => ?_, ?_⟩
  · have h1 := hr 0
    rw [hu0, h0] at h1
    exact empty_lights_up (Witness.tinyNet κ) .gaussian (.inl rfl) [1, 2] [3] [4] rfl hdt hpos
      .circular 0.5 0 hca none (10 / 9) (hd 0) _ h1 n e i j
  · exact hn s _ u h0 hr hd (by rw [hu0]; intro n e i j; norm_num) n₀ le_rfl

/-- The same network with `ReLU` instead leaves the empty universe empty. -/
example (κ : AnyKernel) (r) (h : ∃ ca, NCAObj.automaton { Witness.tinyNet κ with
      tensors := initialTensors .relu [1, 2] [3] [4] } .relu 1 1 1 .circular 0.5 0 = some ca ∧
      ca.forward none (fun _ _ _ _ => 0 : Univ ℝ 1 1 3 3) = .ok r) : r.1 = fun _ _ _ _ => 0 := by
  obtain ⟨ca, h1, h2⟩ := h
  exact empty_stays_empty _ .relu (by rintro (h | h) <;> cases h) _ _ _ h1 none r h2

/-- Saving and loading the tiny network. -/
example (κ : AnyKernel) (hκ : gaussianMixtureKernel 2 [1, 0.5, 0.15] = .ok κ) (o₀ : NCAObj) :
    ∃ o', o₀.loadConfig [[7, 7], [7], [7], [7], [7], [7], [7]] (Witness.tinyNet κ).makeConfig.1 =
        (o', none) ∧
      o'.automaton (chooseAct (some ActKind.gaussian.savedName)) 1 1 1 .circular 0.5 0 =
        (Witness.tinyNet κ).automaton .gaussian 1 1 1 .circular 0.5 0 :=
  network_reload (Witness.tinyNet κ) o₀ .gaussian [1, 0.5, 0.15]
    { params := rfl, mix := ⟨by decide, by decide⟩, radius := by simp [Witness.tinyNet]
      layer := hκ, cfg := rfl } _ rfl _ _ _

end Yuca
