import Verif.Model.Object
import Verif.Model.Float
import Mathlib.Analysis.SpecialFunctions.Pow.Real
import Mathlib.Analysis.SpecialFunctions.Trigonometric.Basic

/-!
# Pattern networks (yuca/cppn.py) and parameter agents (yuca/params_agent.py)
-/

namespace Yuca

/-! ## Coordinates -/

/-- The number of points of one side of the coordinate grid, in double precision
(yuca/cppn.py:53-56); `dim` 0 and 1 divide by zero. -/
def cppnPoints (dim : Nat) : Except PyErr ℤ :=
  if dim = 0 ∨ dim = 1 then .error .zeroDiv
  else .ok (arangeLen (-1) (double (1 + double (2 / (dim : ℚ)))) (double (2 / ((dim : ℚ) - 1))))

/-- The `i`-th coordinate of the grid, without rounding. -/
noncomputable def cppnCoord (dim i : Nat) : ℝ := -1 + i * (2 / ((dim : ℝ) - 1))

/-- The maxima the features are divided by: of `2**xx`, `xx**2`, `xx**3` and the three damped
sines (yuca/cppn.py:68-70, 91-95). -/
structure CppnScale where
  twoX : ℝ
  x2 : ℝ
  x3 : ℝ
  s4 : ℝ
  s8 : ℝ
  s16 : ℝ

/-- `rr` (yuca/cppn.py:60). -/
noncomputable def cppnRadius (x y : ℝ) : ℝ := Real.sqrt (x ^ 2 + y ^ 2)

/-- `np.sin(rr*np.pi*k) / (rr + eps)` (yuca/cppn.py:61-63). -/
noncomputable def dampedSine (k r : ℝ) : ℝ := Real.sin (r * Real.pi * k) / (r + 1e-6)

/-- The 16 channels of `grid` at one point before it is repeated (yuca/cppn.py:112-134), without
rounding. -/
noncomputable def cppnFeatures (m : CppnScale) (x y : ℝ) : List ℝ :=
  let r := cppnRadius x y
  [x, 1 - r, |x|, |y|, (2 : ℝ) ^ x / m.twoX, x ^ 2 / m.x2, x ^ 3 / m.x3,
    Real.cos (Real.pi * y), Real.sin (Real.pi * x),
    Real.cos (Real.pi * 2 * y), Real.sin (Real.pi * 2 * x),
    Real.cos (Real.pi * 4 * y), Real.sin (Real.pi * 4 * x),
    dampedSine 4 r / m.s4, dampedSine 8 r / m.s8, dampedSine 16 r / m.s16]

/-- `for ii in range(external_channels-1): grid = torch.cat([grid, grid], dim=1)`
(yuca/cppn.py:138-140), for the channels at one point. -/
def cppnRepeat {K : Type} : Nat → List K → List K
  | 0, l => l
  | n + 1, l => cppnRepeat n (l ++ l)

/-! ## Network -/

/-- `nn.Linear` followed by `Gaussian()` (yuca/cppn.py:44-48). -/
structure CppnLayer where
  weight : List (List ℝ)
  bias : List ℝ
  mu : ℝ
  sigma : ℝ

/-- A layer on the channels of one point; `nn.Linear` refuses input of the wrong width. -/
noncomputable def CppnLayer.run (l : CppnLayer) (x : List ℝ) : Except PyErr (List ℝ) :=
  if ∀ row ∈ l.weight, row.length = x.length then
    .ok ((l.weight.zip l.bias).map fun wb =>
      gaussianFn l.mu l.sigma false ((List.zipWith (· * ·) wb.1 x).sum + wb.2))
  else .error .runtime

/-- `self.model(x)`. -/
noncomputable def cppnModel (layers : List CppnLayer) (x : List ℝ) : Except PyErr (List ℝ) :=
  layers.foldlM (fun v l => l.run v) x

/-- One value of the pattern from the output of the network and the radius
(yuca/cppn.py:159-161). -/
noncomputable def cppnCell (g r : ℝ) : ℝ :=
  let p := g * (1 - r) ^ 2
  max (if 0.75 ≤ r then p * 0.000001 else p) 0

/-- `get_action` at row `i` and column `j` (yuca/cppn.py:151-163): the value of every channel.
`np.meshgrid` makes `xx` the coordinate of the column and `yy` that of the row. -/
noncomputable def cppnAction (channels dim : Nat) (m : CppnScale) (layers : List CppnLayer)
    (i j : Nat) : Except PyErr (List ℝ) :=
  let x := cppnCoord dim j
  let y := cppnCoord dim i
  match cppnModel layers (cppnRepeat (channels - 1) (cppnFeatures m x y)) with
  | .error e => .error e
  | .ok out =>
    -- `rr` is repeated like the grid and must have as many channels as the pattern
    if out.length = 2 ^ (channels - 1) then .ok (out.map fun g => cppnCell g (cppnRadius x y))
    else .error .runtime

/-- What `init_model` makes of the sizes (yuca/cppn.py:40-48): four layers, from
`16 * external_channels` over `hidden_dim` to `external_channels`.  For `eps + sigma = 0` torch
divides by zero; that is excluded. -/
def CppnLayer.Sized (l : CppnLayer) (inp out : Nat) : Prop :=
  l.weight.length = out ∧ l.bias.length = out ∧ (∀ row ∈ l.weight, row.length = inp) ∧
    eps9 + l.sigma ≠ 0

/-- The sizes of the four layers. -/
def CppnSized (channels hidden : Nat) (layers : List CppnLayer) : Prop :=
  ∃ a b c d, layers = [a, b, c, d] ∧ a.Sized (16 * channels) hidden ∧ b.Sized hidden hidden ∧
    c.Sized hidden hidden ∧ d.Sized hidden channels

/-! ## Parameter agents -/

/-- The keyword arguments of `ParamsAgent` (yuca/params_agent.py:13-35). -/
structure AgentKwargs where
  caParams : Option (List ℝ)
  numParams : Option Nat
  params : Option (List ℝ)
  filter : Option Bool

/-- `ParamsAgent(...)` (yuca/params_agent.py:13-35), with the draw of `np.random.rand`; second, its
`num_params`. -/
noncomputable def ParamsAgent.new (kw : AgentKwargs) (rand : Nat → List ℝ) : ParamsAgent ℝ × Nat :=
  let filter := kw.filter.getD false
  match kw.caParams with
  | some p => ({ params := p, filter }, p.length)
  | none =>
    match kw.numParams with
    | some n => ({ params := rand n, filter }, n)
    | none =>
      let p := kw.params.getD [0.15, 0.015, 0.15, 0.020]
      ({ params := p, filter }, p.length)

/-- `ParamsAgent.get_action` (yuca/params_agent.py:38-45): the agent and what is returned. -/
def ParamsAgent.getAction (a : ParamsAgent ℝ) : ParamsAgent ℝ × List ℝ :=
  let a' := if a.filter then { a with params := a.params.map fun x => |x| } else a
  (a', a'.params)

end Yuca
