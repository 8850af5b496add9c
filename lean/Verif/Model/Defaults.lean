import Verif.Model.Calibration
import Verif.Model.HalfSpaceTrees
import Verif.Model.Integrations
import Verif.Model.KitNet
import Verif.Model.Loda
import Verif.Model.RelativeEntropy
import Verif.Model.Rrcf
import Verif.Model.RsHashInit
import Verif.Model.Scalers
import Verif.Model.SimpleModels

/-! The constructors called with their default arguments. (Those of `xStream` are in
`Model/XStreamInit.lean`.) -/

namespace Pysad

namespace Defaults

section
variable {G α β M S τ K : Type*} [Field K] [LinearOrder K]

/-- `ExactStorm()`, `pysad/models/exact_storm.py` l.17. -/
def exactStorm : StormState α K := StormState.new 10000 (1 / 10)

/-- `KitNet()`, `pysad/models/kitnet.py` l.17-23. -/
def kitNet (n : ℕ) : KitNetState K n := KitNet.new n 10 none 50000 (1 / 10) (3 / 4)

/-- `LODA()`, `pysad/models/loda.py` l.13. -/
def loda (g : G) : LodaState G K := Loda.new g 10 100

/-- `MedianAbsoluteDeviation()`, `pysad/models/median_absolute_deviation.py` l.18. -/
def medianAbsoluteDeviation : MadState K := MadState.new true (14826 / 10000)

/-- `StandardAbsoluteDeviation()`, `pysad/models/standard_absolute_deviation.py` l.19. -/
def standardAbsoluteDeviation : Except PyErr (SadObject K) := SadObject.new "mean" true

/-- `RobustRandomCutForest()`, `pysad/models/robust_random_cut_forest.py` l.13. -/
def robustRandomCutForest (api : RcTreeApi τ α K G) (g : G) : RrcfState τ G := Rrcf.new api g 4 256

/-- `IForestASD()`, `pysad/models/iforest_asd.py` l.12. -/
def iforestASD (b : BatchDetector G M α β S) (g : G) : Res (RefWindowState G M α β) Unit :=
  RefWindow.newIForestASD b g none 2048

/-- `RelativeEntropy(min_val, max_val)`, `pysad/models/relative_entropy.py` l.17. -/
def relativeEntropy (isf : ℤ → Num K) (lo hi : K) : Except PyErr (RelEntState K) :=
  RelEnt.new isf lo hi 5 52

/-- `HalfSpaceTrees(feature_mins, feature_maxes)`, `pysad/models/half_space_trees.py` l.18-25. -/
def halfSpaceTrees (randint : G → ℕ → ℕ × G) (mins maxes : List K) (g : G) :
    Except PyErr (HstState K) :=
  Hst.new randint mins maxes 100 25 15 g

/-- `ConformalProbabilityCalibrator()`,
`pysad/transform/probability_calibration/conformal_prediction.py` l.16. -/
def conformal : ConformalState α := Conformal.new true 300

/-- `GaussianTailProbabilityCalibrator()`,
`pysad/transform/probability_calibration/gaussian_tail.py` l.17: its methods and the new object. -/
def gaussianTail (sqrt erfc : K → K) :=
  (gaussianTailRunning sqrt erfc 6400, gaussianTailRunning.init (K := K) 6400)

end

/-- `RSHash(feature_mins, feature_maxes)`, `pysad/models/rs_hash.py` l.17-24. -/
def rsHash {G K : Type*} [Field K] [LinearOrder K] [IsStrictOrderedRing K] [FloorRing K] {dim : ℕ}
    (pow2 log sqrt : K → K) (rnd : RsRandom G K dim) (bounds : RsBounds K dim) (g : G) :
    Except PyErr (RsHashState K dim) × G :=
  RsHash.init pow2 log sqrt rnd bounds 1000 (15 / 1000) 100 1 g

/-- `InstanceUnitNormScaler()`,
`pysad/transform/preprocessing/instance_unit_norm_scaler.py` l.12. -/
noncomputable def instanceUnitNormScaler (d : ℕ) : Transformer Unit (Fin d → ℝ) (Fin d → Num ℝ) :=
  Pysad.instanceUnitNormScaler (.fin 2) d

end Defaults

end Pysad
