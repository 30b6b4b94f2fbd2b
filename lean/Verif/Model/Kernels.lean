import Verif.Model.Activations
import Mathlib.Data.Finset.Lattice.Fold
import Mathlib.Algebra.BigOperators.Group.Finset.Basic
import Mathlib.Analysis.Real.Pi.Bounds

/-!
# Neighborhood kernels (yuca/kernels.py)

Over exact reals.  A kernel is a square matrix; the leading `(1, 1)` axes are left out.
-/

namespace Yuca

/-- `np.sqrt(xx**2 + yy**2) / radius` on `arange(-radius, radius+1)` in both directions
(yuca/kernels.py:44-46, 69-72, 86-89, 102-105, 117-120, with `r_scale = 1`). -/
noncomputable def radialGrid (r : Nat) (a b : Fin (2 * r + 1)) : ℝ :=
  Real.sqrt (((b.val : ℝ) - r) ^ 2 + ((a.val : ℝ) - r) ^ 2) / r

/-- `kernel.min()`. -/
noncomputable def kernelMin {r : Nat} (κ : Fin (2 * r + 1) → Fin (2 * r + 1) → ℝ) : ℝ :=
  Finset.univ.inf' ⟨(0, 0), Finset.mem_univ _⟩ fun p : Fin (2 * r + 1) × Fin (2 * r + 1) => κ p.1 p.2

/-- `kernel = kernel - kernel.min(); kernel = kernel / (eps + kernel.sum())`
(yuca/kernels.py:53-54, 77-78, 94-95, 109-110, 125-126, 149-150, 174-175). -/
noncomputable def normaliseKernel {r : Nat} (κ : Fin (2 * r + 1) → Fin (2 * r + 1) → ℝ) :
    Fin (2 * r + 1) → Fin (2 * r + 1) → ℝ :=
  let κ' := fun a b => κ a b - kernelMin κ
  fun a b => κ' a b / (eps9 + ∑ a, ∑ b, κ' a b)

/-- `LaplacianOfGaussian.forward` on a whole kernel grid (yuca/activations.py:162-174). -/
noncomputable def logKernel {r : Nat} (sigma : ℝ) (x : Fin (2 * r + 1) → Fin (2 * r + 1) → ℝ) :
    Fin (2 * r + 1) → Fin (2 * r + 1) → ℝ :=
  let l := fun a b => -(1 / (Real.pi * sigma ^ 4)) * (1 - x a b ^ 2 / (2 * sigma ^ 2)) *
    Real.exp (-(x a b ^ 2) / (2 * sigma ^ 2))
  let mean := (∑ a, ∑ b, l a b) / ((2 * r + 1) * (2 * r + 1) : ℝ)
  let l' := fun a b => l a b - mean
  fun a b => l' a b / ∑ a, ∑ b, |l' a b|

/-- `get_laplacian_kernel` (yuca/kernels.py:59-63). -/
noncomputable def laplacian9 : Fin 3 → Fin 3 → ℝ :=
  ![![1/4, 1/2, 1/4], ![1/2, -3, 1/2], ![1/4, 1/2, 1/4]]

/-- The `MooreLike` branch (yuca/kernels.py:26-32): ones, zero at the centre, divided by the
sum.  For radius 0 the sum is 0 and numpy returns NaN with a warning; Lean's `0 / 0` is 0,
so statements about it assume `r ≥ 1` or speak about the sum. -/
noncomputable def mooreOnes (r : Nat) (a b : Fin (2 * r + 1)) : ℝ :=
  if a.val = r ∧ b.val = r then 0 else 1

/-- See `mooreOnes`. -/
noncomputable def mooreLike (r : Nat) (a b : Fin (2 * r + 1)) : ℝ :=
  mooreOnes r a b / ∑ a, ∑ b, mooreOnes r a b

/-- Keyword arguments a kernel config can carry under `kernel_kwargs`; a missing key is
`none`.  Tensors and arrays are lists. -/
structure KernelKwargs where
  mu : Option ℝ := none
  sigma : Option ℝ := none
  omega : Option ℝ := none
  parameters : Option (List ℝ) := none
  ra : Option ℝ := none
  ri : Option ℝ := none
  mode : Bool := false
  dx : Option ℝ := none

/-- A kernel config dictionary (`name`, `radius`, `kernel_kwargs`; missing keys are `none`). -/
structure KernelConfig where
  name : String
  radius : Option Nat
  kwargs : Option KernelKwargs

/-- A kernel of any odd side. -/
abbrev AnyKernel := Σ r : Nat, Fin (2 * r + 1) → Fin (2 * r + 1) → ℝ

/-- The radial function a kernel name selects (yuca/kernels.py:12-21, 40, with the defaults of
yuca/activations.py:34-35, 125-126, 181-182, 216, 343-345). -/
noncomputable def kernelFn (name : String) (kw : KernelKwargs) : Except PyErr (ℝ → ℝ) :=
  if name = "Gaussian" then
    .ok (gaussianFn (kw.mu.getD 0) (kw.sigma.getD 0.1) kw.mode)
  else if name = "GaussianMixture" then do
    let cs ← mixtureComponents 1 (kw.parameters.getD [0.5, 0.15])
    if cs = [] then .error .index   -- `self.amplitudes[0]` (yuca/activations.py:257)
    else return mixtureFn cs kw.mode
  else if name = "CosOverX2" then
    .ok (cosOverX2Fn (kw.mu.getD 0) (kw.omega.getD 25.12) kw.mode)
  else if name = "DoGaussian" then
    .ok (doGaussianFn (kw.mu.getD 0) (kw.sigma.getD 0.1) (kw.dx.getD 0.01) kw.mode)
  else if name = "SmoothLifeKernel" then
    .ok (smoothLifeFn (kw.ra.getD 1) (kw.ri.getD (1/3)))
  else .error .assertion

/-- `get_kernel` (yuca/kernels.py:10-56).  Radius 0 with a radial function divides 0 by 0
(a NaN kernel); the model reports it as `.zeroDiv`, also for `MooreLike`. -/
noncomputable def getKernel (cfg : KernelConfig) : Except PyErr AnyKernel :=
  if cfg.name = "InnerMoore" then .ok ⟨1, identityKernel⟩
  else if cfg.name = "MooreLike" then
    match cfg.radius with
    | none => .error .key
    | some r => if r = 0 then .error .zeroDiv else .ok ⟨r, mooreLike r⟩
  else if cfg.name = "LaplacianOfGaussian" then
    match cfg.kwargs, cfg.radius with
    | some kw, some r =>
      if r = 0 then .error .zeroDiv else .ok ⟨r, logKernel (kw.sigma.getD 0.5) (radialGrid r)⟩
    | _, _ => .error .key
  else if cfg.name ∈ ["Gaussian", "GaussianMixture", "CosOverX2", "DoGaussian",
      "SmoothLifeKernel"] then
    match cfg.kwargs, cfg.radius with
    | some kw, some r =>
      match kernelFn cfg.name kw with
      | .error e => .error e
      | .ok f =>
        if r = 0 then .error .zeroDiv
        else .ok ⟨r, normaliseKernel fun a b => f (radialGrid r a b)⟩
    | _, _ => .error .key
  else .error .assertion

/-- `get_gaussian_mixture_kernel` (yuca/kernels.py:99-112), used by `default_init` and
`set_params`. -/
noncomputable def gaussianMixtureKernel (r : Nat) (ps : List ℝ) : Except PyErr AnyKernel :=
  getKernel ⟨"GaussianMixture", some r, some { parameters := some ps }⟩

/-- `get_gaussian_edge_kernel` / `get_dogaussian_edge_kernel` (yuca/kernels.py:130-177) for
an arbitrary radial function `f`; `mode` selects the axis. -/
noncomputable def edgeRaw (f : ℝ → ℝ) (r : Nat) (mode : Bool) (dx : ℝ) (a b : Fin (2 * r + 1)) : ℝ :=
  let x := (b.val : ℝ) - r
  let y := (a.val : ℝ) - r
  if mode then f (Real.sqrt ((x - dx) ^ 2 + y ^ 2) / r) - f (Real.sqrt ((x + dx) ^ 2 + y ^ 2) / r)
  else f (Real.sqrt (x ^ 2 + (y - dx) ^ 2) / r) - f (Real.sqrt (x ^ 2 + (y + dx) ^ 2) / r)

/-- `get_gaussian_edge_kernel` (yuca/kernels.py:130-152), radius at least 1. -/
noncomputable def gaussianEdgeKernel (r : Nat) (mu sigma : ℝ) (mode : Bool) (dx : ℝ) :
    Fin (2 * r + 1) → Fin (2 * r + 1) → ℝ :=
  normaliseKernel (edgeRaw (gaussianFn mu sigma false) r mode dx)

/-- `get_dogaussian_edge_kernel` (yuca/kernels.py:155-177), radius at least 1. -/
noncomputable def doGaussianEdgeKernel (r : Nat) (mu sigma : ℝ) (mode : Bool) (dx : ℝ) :
    Fin (2 * r + 1) → Fin (2 * r + 1) → ℝ :=
  normaliseKernel (edgeRaw (doGaussianFn mu sigma 0.01 false) r mode dx)

end Yuca
