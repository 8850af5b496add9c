import Verif.Model.Num
import Mathlib.Algebra.Order.Field.Basic

/-! `scipy.stats.entropy(pk, qk)`, which `pysad/models/relative_entropy.py` calls at l.118. External to the code and
modelled after its documentation: the arguments are divided by their sums, and the result is the sum of
`scipy.special.rel_entr` over the entries. -/

namespace Pysad

namespace Scipy

variable {K : Type*} [Field K] [LinearOrder K]

/-- `scipy.special.rel_entr(x, y)` for finite numbers; `log` is the natural logarithm. -/
def relEntr (log : K → K) (x y : K) : Num K :=
  if 0 < x ∧ 0 < y then .fin (x * log (x / y))
  else if x = 0 ∧ 0 ≤ y then .fin 0
  else .posInf

/-- The value of a float that is a number. -/
def finite : Num K → Option K
  | .fin x => some x
  | _ => none

/-- `scipy.stats.entropy(pk, qk)` for arrays of the same length. Entries that are not finite and arrays that add up to 0
give `nan` (simplified for infinite entries, which `np.histogram` with `density=True` does not return). -/
def entropy (log : K → K) (pk qk : List (Num K)) : Num K :=
  match pk.mapM finite, qk.mapM finite with
  | some p, some q =>
    if p.sum = 0 ∨ q.sum = 0 then .nan
    else (List.zipWith (relEntr log) (p.map fun x => x / p.sum) (q.map fun y => y / q.sum)).foldl Num.add (.fin 0)
  | _, _ => .nan

end Scipy

end Pysad
