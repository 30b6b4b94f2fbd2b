import Verif.Model.Object

/-!
# Saving a rule (yuca/ca/continuous.py)
-/

namespace Yuca

/-- The file `np.save(path, …)` writes: `.npy` is appended unless the path ends in it (numpy, called
at yuca/ca/continuous.py:265, yuca/ca/neural.py:263, yuca/ca/reaction_diffusion.py:200). -/
def npSaved (path : String) : String :=
  if (".npy".toList).isSuffixOf path.toList then path else path ++ ".npy"

/-- `save_config` with the config given (yuca/ca/continuous.py:260-265): the config files
afterwards.  The directory of the path exists. -/
def saveConfig (fs : Files) (path : String) (cfg : Config) : Files :=
  Function.update fs (npSaved path) (some cfg)

/-- `save_config` without one (yuca/ca/continuous.py:260-265): `make_config` first, which also
changes the object. -/
noncomputable def CCAObj.saveConfig (o : CCAObj) (fs : Files) (path : String) : Files × CCAObj :=
  (Yuca.saveConfig fs path o.makeConfig.1, o.makeConfig.2)

end Yuca
