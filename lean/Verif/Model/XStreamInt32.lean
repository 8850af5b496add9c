import Verif.Model.XStream

/-! `pysad/models/xstream.py` again, with the conversion of the bins to 32-bit integers. -/

namespace Pysad.XStream

variable {K : Type*} [Field K] [LinearOrder K] [IsStrictOrderedRing K] [FloorRing K] {k : ℕ}
variable (conv : ℤ → ℤ)

/-- `tuple(np.floor(prebin).astype(np.int32))`, `xstream.py` l.122, l.135 and l.160, where `conv` is
what `astype(np.int32)` makes of a whole number (left open by the C standard outside the range of the
type). -/
def binIndex32 (prebins : Fin k → K) : Fin k → ℤ := fun f => conv (binIndex prebins f)

/-- The loop of `_Chain.fit`, l.109-140, as `fitLoop`. -/
def fitLoop32 (X : Fin k → K) :
    XsChain K k → ℕ → List (Fin k) → (Fin k → K) × (Fin k → ℕ) → XsChain K k
  | c, _, [], _ => c
  | c, depth, f :: fs, st =>
    let st := prebinStep c X f st
    fitLoop32 X (record c depth (binIndex32 conv st.1)) (depth + 1) fs st

/-- `_Chain.fit`, l.106-142, as `fitChain`. -/
def fitChain32 (X : Fin k → K) (c : XsChain K k) : XsChain K k :=
  fitLoop32 conv X c 0 c.fs (fun _ => 0, fun _ => 0)

/-- The loop of `_Chain.bincount`, l.148-164, as `bincountLoop`. -/
def bincountLoop32 (X : Fin k → K) (c : XsChain K k) :
    ℕ → List (Fin k) → (Fin k → K) × (Fin k → ℕ) → List ℕ
  | _, [], _ => []
  | depth, f :: fs, st =>
    let st := prebinStep c X f st
    ((c.heap (c.cmsketches depth)) (binIndex32 conv st.1)).getD 0 ::
      bincountLoop32 X c (depth + 1) fs st

/-- `_Chain.bincount`, l.144-166, as `bincount`. -/
def bincount32 (X : Fin k → K) (c : XsChain K k) : List ℕ :=
  bincountLoop32 conv X c 0 c.fs (fun _ => 0, fun _ => 0)

/-- `_Chain.score`, l.168-174, as `scoreChain`. -/
def scoreChain32 (log2 : K → K) (X : Fin k → K) (c : XsChain K k) : Except PyErr K :=
  let scores := (bincount32 conv X c).zipIdx.map fun p =>
    log2 (1 + (p.1 : K)) + ((p.2 + 1 : ℕ) : K)
  (npMin scores).map fun m => -m

/-- `fit_partial`, l.36-62, as `fitPartial`. -/
def fitPartial32 (mmh3 : String → ℕ → ℕ) (s : XStreamState K k) (x : List K) :
    Res (XStreamState K k) Unit :=
  let s := { s with step := s.step + 1 }
  let X := project mmh3 s.streamhash x
  let s := { s with curWindow := s.curWindow ++ [X], chains := s.chains.map (fitChain32 conv X) }
  if s.windowSize = 0 then .err .zeroDivision s
  else if s.step % s.windowSize = 0 then
    let s := { s with refWindow := some s.curWindow, curWindow := [] }
    match computeDeltamax (s.refWindow.getD []) with
    | .error e => .err e s
    | .ok deltamax =>
      let s := { s with chains := s.chains.map (setDeltamax deltamax) }
      .ok () { s with chains := s.chains.map nextWindow }
  else .ok () s

/-- `_HSChains.score`, l.193-199, the loop over the chains, as `scoreChains`. -/
def scoreChains32 (log2 : K → K) (X : Fin k → K) : List (XsChain K k) → K → Except PyErr K
  | [], acc => .ok acc
  | c :: cs, acc =>
    match scoreChain32 conv log2 X c with
    | .error e => .error e
    | .ok v => scoreChains32 log2 X cs (acc + v)

/-- `score_partial`, l.64-77, as `scorePartial`. -/
def scorePartial32 (mmh3 : String → ℕ → ℕ) (log2 : K → K) (s : XStreamState K k) (x : List K) :
    Res (XStreamState K k) (Num K) :=
  match scoreChains32 conv log2 (project mmh3 s.streamhash x) s.chains 0 with
  | .error e => .err e s
  | .ok total => .ok (npDiv total (s.chains.length : K)) s

/-- `xStream` with 32-bit bins. -/
def detector32 {β : Type*} (mmh3 : String → ℕ → ℕ) (log2 : K → K) :
    Detector (XStreamState K k) (List K) β (Num K) where
  fitPartial s x _ := fitPartial32 conv mmh3 s x
  scorePartial := scorePartial32 conv mmh3 log2

end Pysad.XStream
