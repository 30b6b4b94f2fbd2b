import Verif.Model.Layers

/-!
# Activations (growth functions and radial kernel functions)

Over exact reals.  `eps + sigma = 0` makes torch divide by zero (the result is 0 or NaN);
Lean's `x / 0 = 0` differs there, so every theorem that uses a Gaussian assumes
`eps + sigma ≠ 0`.
-/

namespace Yuca

/-- An activation object with its stored parameters (yuca/activations.py).  `mode` is the
truth value of `self.mode`.  `polynomial` covers 83-118, `mixture` 210-267 (components are
`(amplitude, mu, sigma)`), `relu`/`tanh` are `nn.ReLU`/`nn.Tanh` as used by
`add_genesis_fn` (yuca/ca/continuous.py:439-442). -/
inductive Act (K : Type) where
  | gaussian (mu sigma : K) (mode : Bool)
  | doGaussian (mu sigma dx : K) (mode : Bool)
  | doubleGaussian (mu₀ mu₁ sigma₀ sigma₁ : K) (mode : Bool)
  | mixture (comps : List (K × K × K)) (mode : Bool)
  | polynomial (coefs : List K) (mode : Bool)
  | smoothIntervals (ints : List (K × K)) (alpha : K) (mode : Bool)
  | identity
  | relu
  | tanh
  deriving DecidableEq

/-- `eps = 1e-9` of the activations and kernels (yuca/activations.py:198, 317, 361,
yuca/kernels.py:43). -/
noncomputable def eps9 : ℝ := 1e-9

/-- `torch.exp(- ((x - mu) / (eps + sigma))**2 / 2)` (yuca/activations.py:204, 206). -/
noncomputable def bump (mu sigma x : ℝ) : ℝ := Real.exp (-((x - mu) / (eps9 + sigma)) ^ 2 / 2)

/-- `torch.clamp(x, lo, hi)` over the reals. -/
noncomputable def clampR (lo hi x : ℝ) : ℝ := min (max x lo) hi

/-- `Gaussian.forward` (yuca/activations.py:197-208). -/
noncomputable def gaussianFn (mu sigma : ℝ) (mode : Bool) (x : ℝ) : ℝ :=
  if mode then bump mu sigma x * 2 - 1 else bump mu sigma x

/-- `DoGaussian.forward` (yuca/activations.py:360-376); note the precedence in mode 1. -/
noncomputable def doGaussianFn (mu sigma dx : ℝ) (mode : Bool) (x : ℝ) : ℝ :=
  let g₁ := bump mu sigma (x + dx)
  let g₂ := bump mu sigma (x - dx)
  if mode then g₁ - g₂ * 2 - 1 else g₁ - g₂

/-- `DoubleGaussian.forward` (yuca/activations.py:316-335). -/
noncomputable def doubleGaussianFn (mu₀ mu₁ sigma₀ sigma₁ : ℝ) (mode : Bool) (x : ℝ) : ℝ :=
  let r := bump mu₀ sigma₀ x + bump mu₁ sigma₁ x
  if mode then clampR (-1) 1 (r * 2 - 1) else clampR 0 1 r

/-- `GaussianMixture.forward` (yuca/activations.py:255-267).  With no components
`self.amplitudes[0]` raises; that case is excluded where components are read
(`mixtureComponents`, `Act.ofMixture`). -/
noncomputable def mixtureFn (comps : List (ℝ × ℝ × ℝ)) (mode : Bool) (x : ℝ) : ℝ :=
  let r := (comps.map fun c => c.1 * bump c.2.1 c.2.2 x).sum
  if mode then clampR (-1) 1 (r * 2 - 1) else clampR 0 1 r

/-- `Polynomial.forward` (yuca/activations.py:101-118). -/
noncomputable def polynomialFn (coefs : List ℝ) (mode : Bool) (x : ℝ) : ℝ :=
  let r := (coefs.mapIdx fun i v => v * x ^ i).sum
  if mode then r * 2 - 1 else r

/-- `SmoothIntervals.sigmoid_1` (yuca/activations.py:56-58). -/
noncomputable def sigmoid1 (mu alpha x : ℝ) : ℝ := 1 / (1 + Real.exp (-4 * (x - mu) / alpha))

/-- `SmoothIntervals.forward` (yuca/activations.py:60-71). -/
noncomputable def smoothIntervalsFn (ints : List (ℝ × ℝ)) (alpha : ℝ) (mode : Bool) (x : ℝ) : ℝ :=
  let r := (ints.map fun b => sigmoid1 b.1 alpha x * (1 - sigmoid1 b.2 alpha x)).sum
  if mode then r * 2 - 1 else r

/-- `forward` of an activation object. -/
noncomputable def Act.eval : Act ℝ → ℝ → ℝ
  | .gaussian mu s m => gaussianFn mu s m
  | .doGaussian mu s dx m => doGaussianFn mu s dx m
  | .doubleGaussian m₀ m₁ s₀ s₁ m => doubleGaussianFn m₀ m₁ s₀ s₁ m
  | .mixture cs m => mixtureFn cs m
  | .polynomial cs m => polynomialFn cs m
  | .smoothIntervals is a m => smoothIntervalsFn is a m
  | .identity => id
  | .relu => fun x => max x 0
  | .tanh => Real.tanh

/-- `CosOverX2.forward` (yuca/activations.py:141-153). -/
noncomputable def cosOverX2Fn (mu omega : ℝ) (mode : Bool) (x : ℝ) : ℝ :=
  let i := |mu - x|
  if mode then Real.cos (omega * i) / (1 + (10 * i) ^ 2)
  else Real.cos (omega * i) / (1 + (10 * i) ^ 2) + 1

/-- `SmoothLifeKernel.forward` (yuca/activations.py:37-44). -/
noncomputable def smoothLifeFn (ra ri x : ℝ) : ℝ :=
  if x > ra then 0 else if x ≥ ri then 1 else 0

/-- How `GaussianMixture.__init__` reads its parameter vector (yuca/activations.py:227-253):
triples when the length is a multiple of 3, otherwise pairs with amplitude `one`; an
unpaired last entry raises IndexError. -/
def mixtureComponents {K : Type} (one : K) (ps : List K) : Except PyErr (List (K × K × K)) :=
  if ps.length % 3 = 0 then triples ps else pairs ps
where
  triples : List K → Except PyErr (List (K × K × K))
    | [] => .ok []
    | a :: m :: s :: rest => do return (a, m, s) :: (← triples rest)
    | _ => .error .index
  pairs : List K → Except PyErr (List (K × K × K))
    | [] => .ok []
    | m :: s :: rest => do return (one, m, s) :: (← pairs rest)
    | _ => .error .index

end Yuca
