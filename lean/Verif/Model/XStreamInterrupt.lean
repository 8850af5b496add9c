import Verif.Model.XStream
import Verif.Model.Interrupt

/-! `xStream.fit_partial`, `pysad/models/xstream.py` l.36-62, store by store: the states the object goes
through, to say what is left behind by a call that is interrupted (`KeyboardInterrupt`, a signal handler that
raises). Between l.56 and l.57 `ref_window` and `cur_window` are one list; that list is not read under
the name `ref_window` before the name is bound anew, so the model keeps two. -/

namespace Pysad.XStream

variable {K : Type*} [Field K] [LinearOrder K] [IsStrictOrderedRing K] [FloorRing K] {k : ℕ}

/-- The chain after each of the assignments of l.119-140 at `depth`: `cmsketch[l_index] = 0` (if there is no
entry), `cmsketch[l_index] += 1`, and those to the lists. -/
def recordStages (c : XsChain K k) (depth : ℕ) (l : Fin k → ℤ) : List (XsChain K k) :=
  let ref := if c.isFirstWindow then c.cmsketches depth else c.cmsketchesCur depth
  let entered := Function.update (c.heap ref) l (some (((c.heap ref) l).getD 0))
  [{ c with heap := Function.update c.heap ref entered },
   { c with heap := Function.update c.heap ref (increment (c.heap ref) l) },
   record c depth l]

/-- The chain after each assignment of the loop of `_Chain.fit`, l.109-140. -/
def fitLoopStages (X : Fin k → K) :
    XsChain K k → ℕ → List (Fin k) → (Fin k → K) × (Fin k → ℕ) → List (XsChain K k)
  | _, _, [], _ => []
  | c, depth, f :: fs, st =>
    let st := prebinStep c X f st
    recordStages c depth (binIndex st.1) ++
      fitLoopStages X (record c depth (binIndex st.1)) (depth + 1) fs st

/-- The chain after each assignment of `_Chain.fit`, l.106-142. -/
def fitChainStages (X : Fin k → K) (c : XsChain K k) : List (XsChain K k) :=
  fitLoopStages X c 0 c.fs (fun _ => 0, fun _ => 0)

/-- The chain after each assignment of the body of `set_deltamax`, l.211-212. -/
def setDeltamaxStages (deltamax : Fin k → K) (c : XsChain K k) : List (XsChain K k) :=
  [{ c with deltamax := deltamax }, setDeltamax deltamax c]

/-- The chain after each assignment of `_Chain.next_window`, l.177-179. -/
def nextWindowStages (c : XsChain K k) : List (XsChain K k) :=
  [{ c with isFirstWindow := false },
   { c with isFirstWindow := false, cmsketches := c.cmsketchesCur },
   nextWindow c]

/-- The chains after each assignment of a loop over them (l.202-203, l.206-207, l.210-212) whose body goes
through the states `stages c` and ends in `body c`. -/
def loopStages {σ : Type*} (stages : σ → List σ) (body : σ → σ) : List σ → List (List σ)
  | [] => []
  | c :: cs => ((stages c).map fun c' => c' :: cs) ++ ((loopStages stages body cs).map fun cs' => body c :: cs')

/-- The states after each of the assignments of `fit_partial`, l.46-60. -/
def fitStages (mmh3 : String → ℕ → ℕ) (s : XStreamState K k) (x : List K) : List (XStreamState K k) :=
  let X := project mmh3 s.streamhash x
  let s1 := { s with step := s.step + 1 }
  let s2 := { s1 with curWindow := s.curWindow ++ [X] }
  let s3 := { s2 with chains := s.chains.map (fitChain X) }
  [s1, s2] ++
  ((loopStages (fitChainStages X) (fitChain X) s.chains).map fun cs => { s2 with chains := cs }) ++
  if s.windowSize = 0 then []
  else if (s.step + 1) % s.windowSize = 0 then
    let s4 := { s3 with refWindow := some s2.curWindow, curWindow := [] }
    [{ s3 with refWindow := some s2.curWindow }, s4] ++
    match computeDeltamax s2.curWindow with
    | .error _ => []
    | .ok deltamax =>
      ((loopStages (setDeltamaxStages deltamax) (setDeltamax deltamax) s4.chains).map fun cs =>
        { s4 with chains := cs }) ++
      ((loopStages nextWindowStages nextWindow (s4.chains.map (setDeltamax deltamax))).map fun cs =>
        { s4 with chains := cs })
  else []

/-- The assignments of `fit_partial`, called in the state `s`. -/
def statements (mmh3 : String → ℕ → ℕ) (x : List K) (s : XStreamState K k) :
    List (XStreamState K k → XStreamState K k) := (fitStages mmh3 s x).map fun t _ => t

end Pysad.XStream
