import Verif.Props.Range
import Verif.Props.Equivariance
import Verif.Props.Locality
import Verif.Props.Mirror
import Verif.Props.Structure
import Verif.Props.Kernels
import Verif.Props.Activations
import Verif.Props.Dynamics
import Verif.Props.Symmetry
import Verif.Props.Life
import Verif.Props.GrayScott
import Verif.Props.StepControl
import Verif.Props.Wrappers
import Verif.Props.Params
import Verif.Props.Config
import Verif.Props.Restore
import Verif.Props.Rules
import Verif.Props.Rules2
import Verif.Props.Reconfigure
import Verif.Props.Librarian
import Verif.Props.Cmaes
import Verif.Props.Evolution
import Verif.Props.Mpi
import Verif.Props.Frames
import Verif.Props.Images
import Verif.Props.Analyze
import Verif.Props.Cppn
import Verif.Props.Evolve
import Verif.Props.Clone
import Verif.Props.Predictor
import Verif.Props.Evaluate
import Verif.Props.Evaluate2
import Verif.Model.Search
import Verif.Props.Search
import Verif.Props.Search2
import Verif.Props.Shapes
import Verif.Props.Builtin
import Verif.Model.Patterns
import Verif.Props.Patterns
import Verif.Model.Analysis
import Verif.Props.Analysis
import Verif.Model.Multiverse
import Verif.Props.Multiverse
import Verif.Props.Fitness
import Verif.Spec.Rounding
import Verif.Props.Rounding
import Verif.Model.Render
import Verif.Props.Render
import Verif.Model.Coevolve
import Verif.Props.Coevolve
import Verif.Props.Coevolve2
import Verif.Model.Gifs
import Verif.Props.Gifs
import Verif.Props.Gifs2
import Verif.Model.Halting
import Verif.Props.Halting
import Verif.Props.Halting2
import Verif.Model.Resume
import Verif.Props.Resume
import Verif.Model.Browser
import Verif.Props.Browser
import Verif.Model.PredictorFit
import Verif.Props.PredictorFit
import Verif.Model.Notebook
import Verif.Props.Notebook
import Verif.Lemmas.Euler
import Verif.Props.SmallSteps
import Verif.Props.Windows
import Verif.Model.KernelLoad
import Verif.Props.KernelLoad
import Verif.Props.GrayScottDecay
import Verif.Props.GrayScottRest
import Verif.Props.Faint
import Verif.Props.Launch
import Verif.Props.Trajectories
import Verif.Props.Gliding
import Verif.Props.Everywhere
import Verif.Props.Ranking
import Verif.Props.Coordinates
import Verif.Props.Recurrence
import Verif.Props.Continuity
import Verif.Model.Neural
import Verif.Props.Neural
import Verif.Model.Grad
import Verif.Props.Grad
import Verif.Props.Redundancy
import Verif.Props.Walls
import Verif.Props.Walls2
import Verif.Props.Settings
import Verif.Model.PatternTables
import Verif.Model.Demos
import Verif.Props.Demos
import Verif.Props.StillLifes
import Verif.Model.Shell
import Verif.Lemmas.Shell
import Verif.Props.Shell
import Verif.Model.Options
import Verif.Props.Options
import Verif.Model.Zoo
import Verif.Props.Zoo
import Verif.Model.Stored
import Verif.Props.Stored
import Verif.Model.Tests
import Verif.Model.Tests2
import Verif.Props.Tests
import Verif.Props.Tests2
import Verif.Model.EntropyMap
import Verif.Props.EntropyMap
import Verif.Model.Plot
import Verif.Props.Plot
import Verif.Lemmas.Symmetric
import Verif.Props.LevelLinear
import Verif.Props.LevelWaves
import Verif.Props.LevelStability
import Verif.Props.LevelObjects
import Verif.Lemmas.Spectral
import Verif.Props.GrayScottLinear
import Verif.Props.GrayScottWaves
import Verif.Props.GrayScottPatterns
import Verif.Model.CloneRun
import Verif.Props.CloneRun
import Verif.Props.Drift
import Verif.Model.Conditional
import Verif.Props.Conditional
import Verif.Props.Onward
import Verif.Model.StepNotebook
import Verif.Props.StepNotebook
import Verif.Props.StepPrompts
import Verif.Props.StepLoops
import Verif.Props.StepFrames
import Verif.Model.LeniaLife
import Verif.Props.LeniaLife
import Verif.Props.MorleyNotebook
import Verif.Model.Replay
import Verif.Props.Replay
import Verif.Model.Figures
import Verif.Props.Figures
import Verif.Props.FigureStatistics
import Verif.Props.FigurePictures
import Verif.Model.Gliders
import Verif.Props.GliderFigures
import Verif.Model.SaveFiles
import Verif.Props.SaveFiles
import Verif.Props.Past
import Verif.Props.Sideways
import Verif.Model.Unused
import Verif.Props.Unused
import Verif.Props.RandomDrift
import Verif.Props.EqualDiff
import Verif.Props.Tests3
import Verif.Props.KernelPlot
import Verif.Props.Raises
import Verif.Props.StoredWidth
