import Verif.Model.Statistics
import Verif.Spec.Basic

/-! Driving a modelled statistic through a history of calls, recording what the
caller sees. The caller catches exceptions and carries on with the object in
the state the exception left it in. -/

namespace Pysad

open Spec

variable {σ α β : Type*}

/-- One call. -/
def Statistic.step (st : Statistic σ α β) (s : σ) : Op α → Outcome β × σ
  | .update x => (.done, st.update s x)
  | .remove x =>
    match st.remove s x with
    | .ok _ s => (.done, s)
    | .err e s => (.raised e, s)
  | .get =>
    match st.get s with
    | .ok b s => (.value b, s)
    | .err e s => (.raised e, s)

/-- The outcomes of a history of calls. -/
def Statistic.observe (st : Statistic σ α β) (s : σ) : List (Op α) → List (Outcome β)
  | [] => []
  | o :: h => (st.step s o).1 :: st.observe (st.step s o).2 h

/-- The state after a history of calls. -/
def Statistic.after (st : Statistic σ α β) (s : σ) : List (Op α) → σ
  | [] => s
  | o :: h => st.after (st.step s o).2 h

end Pysad
