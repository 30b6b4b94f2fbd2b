import Verif.Model.Object
import Verif.Model.Text
import Verif.Model.Predictor

/-!
# The network of a neural automaton

Which activation a name selects, what `initialize_weight_layer` leaves in the weights, and the step
function of an `NCA` object.  Over exact reals.
-/

namespace Yuca

/-- The values of `activation_dict` (yuca/ca/neural.py:40-48): five torch modules and two classes of
yuca/activations.py. -/
inductive ActKind where
  | tanh
  | relu
  | silu
  | elu
  | sigmoid
  | gaussian
  | identity
  deriving DecidableEq

/-- `activation_dict` (yuca/ca/neural.py:40-48). -/
def activationDict : List (Str × ActKind) :=
  [("Tanh".toList, .tanh), ("ReLU".toList, .relu), ("SiLU".toList, .silu), ("ELU".toList, .elu),
   ("Sigmoid".toList, .sigmoid), ("Gaussian".toList, .gaussian), ("Identity".toList, .identity)]

/-- How `NCA.__init__` chooses its activation (yuca/ca/neural.py:64-73).  `none` stands for a keyword
argument that is not a string; a missing argument is the string "Gaussian". -/
def chooseAct (arg : Option Str) : ActKind :=
  match arg with
  | none => .gaussian
  | some s =>
    match activationDict.lookup s with
    | some k => k
    | none => .gaussian

/-- Where Python finds the class, as printed by `str` (torch defines its activations in
`torch.nn.modules.activation`). -/
def ActKind.path : ActKind → Str
  | .tanh => "torch.nn.modules.activation.Tanh".toList
  | .relu => "torch.nn.modules.activation.ReLU".toList
  | .silu => "torch.nn.modules.activation.SiLU".toList
  | .elu => "torch.nn.modules.activation.ELU".toList
  | .sigmoid => "torch.nn.modules.activation.Sigmoid".toList
  | .gaussian => "yuca.activations.Gaussian".toList
  | .identity => "yuca.activations.Identity".toList

/-- `str(self.act)` of a class. -/
def ActKind.printed (k : ActKind) : Str := "<class '".toList ++ k.path ++ "'>".toList

/-- `str(self.act).split("'")[1].split(".")[-1]` (`make_config`, yuca/ca/neural.py:244).  The list
has a second element because the printed class has quotation marks. -/
def ActKind.savedName (k : ActKind) : Str :=
  (splitOn '.' ((splitOn '\'' k.printed).getD 1 [])).getLastD []

/-- `forward` of an activation: torch's `Tanh`, `ReLU`, `SiLU`, `ELU` (with `alpha = 1`), `Sigmoid`,
and `Gaussian` in mode 0 and `Identity` of yuca/activations.py:176-208, 73-81.  Only the Gaussian has
parameters. -/
noncomputable def ActKind.eval (k : ActKind) (mu sigma x : ℝ) : ℝ :=
  match k with
  | .tanh => Real.tanh x
  | .relu => max x 0
  | .silu => x * Yuca.sigmoid x
  | .elu => if 0 < x then x else Real.exp x - 1
  | .sigmoid => Yuca.sigmoid x
  | .gaussian => gaussianFn mu sigma false x
  | .identity => x

/-- The parameters of a new activation module (yuca/activations.py:181-193). -/
noncomputable def ActKind.tensors : ActKind → List (List ℝ)
  | .gaussian => [[0], [0.1]]
  | _ => []

/-- `weights_layer.named_parameters()` after `initialize_weight_layer` (yuca/ca/neural.py:265-291):
three convolutions, of which torch draws the weights `d₁ d₂ d₃`, and two activation modules; dropout
and the final `Tanh` have no parameters.  Every parameter is squared, those of the activations too
(lines 289-291). -/
noncomputable def initialTensors (k : ActKind) (d₁ d₂ d₃ : List ℝ) : List (List ℝ) :=
  ([d₁] ++ k.tensors ++ [d₂] ++ k.tensors ++ [d₃]).map fun t => t.map fun x => x ^ 2

/-- The weight tensor of a 1x1 convolution, given by its `ravel()`: output channel outermost
(yuca/ca/neural.py:268-284, 346-355). -/
def matrix (rows cols : Nat) (l : List ℝ) (p : Fin rows) (q : Fin cols) : ℝ :=
  l.getD (p.val * cols + q.val) 0

/-- The step function of an `NCA` object (`CA.forward` with the layers of yuca/ca/neural.py:265-286).
`none` if the tensors are not those of a network with this activation. -/
noncomputable def NCAObj.automaton (o : NCAObj) (k : ActKind) (ext int hid : Nat) (mode : PadMode)
    (thr t : ℝ) : Option (NCA ℝ ext int hid) :=
  let build (a b c : List ℝ) (f g : ℝ → ℝ) : NCA ℝ ext int hid :=
    { idL := identityLayer ext int mode
      nbL := .ofKernel ext int mode (2 * o.nbLayer.1 + 1) o.nbLayer.2
      w₁ := matrix hid (ext + int) a, act₁ := f
      w₂ := matrix hid hid b, act₂ := g
      w₃ := matrix ext hid c
      thr := thr, dt := o.dt, t := t }
  match k, o.tensors with
  | .gaussian, [a, [m₁], [s₁], b, [m₂], [s₂], c] =>
    some (build a b c (ActKind.gaussian.eval m₁ s₁) (ActKind.gaussian.eval m₂ s₂))
  | .gaussian, _ => none
  | k, [a, b, c] => some (build a b c (k.eval 0 0) (k.eval 0 0))
  | _, _ => none

/-- The default parameters of the neighbourhood kernel (yuca/ca/neural.py:104-106). -/
noncomputable def defaultPeaks (peaks : Nat) : List ℝ :=
  (List.replicate peaks [1 / (peaks : ℝ), 0.5, 0.15]).flatten

/-- `NCA.default_init` (yuca/ca/neural.py:96-121) with the default `kernel_params = None` and `dt =
0.1`; `kernel_peaks = 0` divides by zero.  The loop stacks the same kernel for every channel. -/
noncomputable def NCAObj.defaultInit (k : ActKind) (radius peaks : Nat) (d₁ d₂ d₃ : List ℝ) :
    Except PyErr NCAObj :=
  if peaks = 0 then .error .zeroDiv
  else do
    let κ ← gaussianMixtureKernel radius (defaultPeaks peaks)
    return { tensors := initialTensors k d₁ d₂ d₃, kernelRadius := radius, kernelPeaks := peaks
             kernelParams := .vec (defaultPeaks peaks), nbKernel := κ, nbLayer := κ, nbCfg := none
             dt := 0.1 }

end Yuca
