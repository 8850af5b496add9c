import Verif.Model.Base
import Verif.Model.Num
import Verif.Model.Projection
import Mathlib.Algebra.Order.Floor.Ring
import Mathlib.Logic.Function.Basic

/-! Model of `pysad/models/xstream.py`. The dicts of a chain live in a heap and the
lists of dicts are lists of references, because the code shares dicts between lists. -/

namespace Pysad

/-- A count-min sketch: a dict from bins (one integer per feature) to counts. -/
abbrev XsDict (k : ℕ) := (Fin k → ℤ) → Option ℕ

/-- A Python list of references to dicts, as a function of the index. The lists of the
code have `depth * depth` entries, and only the first `depth` are ever used. -/
abbrev XsRefs := ℕ → ℕ

/-- Attributes of `_Chain`, `pysad/models/xstream.py` l.92-104. `heap` holds the dicts and
`fresh` is the first unused address. `depth` is the length of `fs`. -/
structure XsChain (K : Type*) (k : ℕ) where
  fs : List (Fin k)
  heap : ℕ → XsDict k
  fresh : ℕ
  cmsketches : XsRefs
  cmsketchesCur : XsRefs
  deltamax : Fin k → K
  randArr : Fin k → K
  shift : Fin k → K
  isFirstWindow : Bool

/-- Attributes of `xStream`, l.23-34, with those of its `_HSChains`, l.184-191. -/
structure XStreamState (K : Type*) (k : ℕ) where
  streamhash : StreamhashState K
  windowSize : ℕ
  chains : List (XsChain K k)
  step : ℕ
  curWindow : List (Fin k → K)
  refWindow : Option (List (Fin k → K))

/-- The random choices of one `_Chain`, l.96 and l.101: a feature per depth and a shift in
`[0, 1)` per feature. -/
structure XsDraw (K : Type*) (k : ℕ) where
  fs : List (Fin k)
  randArr : Fin k → K

namespace XStream

variable {K : Type*} [Field K] [LinearOrder K] [IsStrictOrderedRing K] [FloorRing K] {k : ℕ}

/-- `[{} for i in range(depth)] * depth`, l.97, l.98 and l.179, with new dicts from address
`base` on. -/
def newRefs (base depth : ℕ) : XsRefs := fun i => base + i % depth

/-- `_Chain.__init__`, l.92-104. -/
def newChain (deltamax : Fin k → K) (draw : XsDraw K k) : XsChain K k where
  fs := draw.fs
  heap := fun _ _ => none
  fresh := 2 * draw.fs.length
  cmsketches := newRefs 0 draw.fs.length
  cmsketchesCur := newRefs draw.fs.length draw.fs.length
  deltamax := deltamax
  randArr := draw.randArr
  shift := fun f => draw.randArr f * deltamax f
  isFirstWindow := true

/-- `deltamax[np.abs(deltamax) <= 0.0001] = 1.0`, l.25 and l.85. -/
def clip (deltamax : Fin k → K) : Fin k → K :=
  fun f => if |deltamax f| ≤ 1 / 10000 then 1 else deltamax f

/-- `__init__`, l.17-34 and l.183-191. -/
def new (streamhash : StreamhashState K) (windowSize : ℕ) (draws : List (XsDraw K k)) :
    XStreamState K k where
  streamhash := streamhash
  windowSize := windowSize
  chains := draws.map (newChain (clip fun _ => 1 * (1 / 2)))
  step := 0
  curWindow := []
  refWindow := none

/-- One pass over l.110-117 (l.149-156): the features' `prebins` and `depthcount` after
using feature `f` once more. -/
def prebinStep (c : XsChain K k) (X : Fin k → K) (f : Fin k)
    (st : (Fin k → K) × (Fin k → ℕ)) : (Fin k → K) × (Fin k → ℕ) :=
  let depthcount := Function.update st.2 f (st.2 f + 1)
  if depthcount f = 1 then
    (Function.update st.1 f ((X f + c.shift f) / c.deltamax f), depthcount)
  else
    (Function.update st.1 f (2 * st.1 f - c.shift f / c.deltamax f), depthcount)

/-- `tuple(np.floor(prebin).astype(np.int32))`, l.122, l.135 and l.160. (The conversion to
`int32` is taken to be exact; `Model/XStreamInt32.lean` models it.) -/
def binIndex (prebins : Fin k → K) : Fin k → ℤ := fun f => ⌊prebins f⌋

/-- `if l_index not in cmsketch: cmsketch[l_index] = 0` and `cmsketch[l_index] += 1`,
l.123-125 and l.136-138. -/
def increment (dict : XsDict k) (l : Fin k → ℤ) : XsDict k :=
  Function.update dict l (some ((dict l).getD 0 + 1))

/-- The body of the loop of `_Chain.fit`, l.119-140, at `depth`. -/
def record (c : XsChain K k) (depth : ℕ) (l : Fin k → ℤ) : XsChain K k :=
  if c.isFirstWindow then
    let ref := c.cmsketches depth
    { c with
      heap := Function.update c.heap ref (increment (c.heap ref) l)
      cmsketches := Function.update c.cmsketches depth ref
      cmsketchesCur := Function.update c.cmsketchesCur depth ref }
  else
    let ref := c.cmsketchesCur depth
    { c with
      heap := Function.update c.heap ref (increment (c.heap ref) l)
      cmsketchesCur := Function.update c.cmsketchesCur depth ref }

/-- The loop of `_Chain.fit`, l.109-140, from `depth` on with the remaining features. -/
def fitLoop (X : Fin k → K) :
    XsChain K k → ℕ → List (Fin k) → (Fin k → K) × (Fin k → ℕ) → XsChain K k
  | c, _, [], _ => c
  | c, depth, f :: fs, st =>
    let st := prebinStep c X f st
    fitLoop X (record c depth (binIndex st.1)) (depth + 1) fs st

/-- `_Chain.fit`, l.106-142, for one instance. -/
def fitChain (X : Fin k → K) (c : XsChain K k) : XsChain K k :=
  fitLoop X c 0 c.fs (fun _ => 0, fun _ => 0)

/-- The loop of `_Chain.bincount`, l.148-164: the counts from `depth` on. -/
def bincountLoop (X : Fin k → K) (c : XsChain K k) :
    ℕ → List (Fin k) → (Fin k → K) × (Fin k → ℕ) → List ℕ
  | _, [], _ => []
  | depth, f :: fs, st =>
    let st := prebinStep c X f st
    ((c.heap (c.cmsketches depth)) (binIndex st.1)).getD 0 :: bincountLoop X c (depth + 1) fs st

/-- `_Chain.bincount`, l.144-166, for one instance. -/
def bincount (X : Fin k → K) (c : XsChain K k) : List ℕ :=
  bincountLoop X c 0 c.fs (fun _ => 0, fun _ => 0)

/-- `np.min`, `ValueError` for an empty array. -/
def npMin : List K → Except PyErr K
  | [] => .error .valueError
  | a :: l => .ok (l.foldl min a)

/-- `_Chain.score`, l.168-174, for one instance; `log2` is `np.log2`. -/
def scoreChain (log2 : K → K) (X : Fin k → K) (c : XsChain K k) : Except PyErr K :=
  let scores := (bincount X c).zipIdx.map fun p => log2 (1 + (p.1 : K)) + ((p.2 + 1 : ℕ) : K)
  (npMin scores).map fun m => -m

/-- `_Chain.next_window`, l.176-179. (`cmsketches` and the old `cmsketches_cur` are the same
list afterwards, but the latter name is bound to a new list at once.) -/
def nextWindow (c : XsChain K k) : XsChain K k :=
  { c with
    isFirstWindow := false
    cmsketches := c.cmsketchesCur
    heap := fun a => if c.fresh ≤ a then fun _ => none else c.heap a
    cmsketchesCur := newRefs c.fresh c.fs.length
    fresh := c.fresh + c.fs.length }

/-- `_HSChains.set_deltamax`, l.209-212, for one chain. -/
def setDeltamax (deltamax : Fin k → K) (c : XsChain K k) : XsChain K k :=
  { c with deltamax := deltamax, shift := fun f => c.randArr f * deltamax f }

/-- The least entry of a column, `np.min(X, axis=0)` (`pysad/utils/__init__.py` l.33). -/
def colMin (x : Fin k → K) (rows : List (Fin k → K)) : Fin k → K :=
  fun f => rows.foldl (fun m r => min m (r f)) (x f)

/-- The greatest entry of a column, `np.max(X, axis=0)` (`pysad/utils/__init__.py` l.34). -/
def colMax (x : Fin k → K) (rows : List (Fin k → K)) : Fin k → K :=
  fun f => rows.foldl (fun m r => max m (r f)) (x f)

/-- `_compute_deltamax`, l.79-87; `np.concatenate` of no arrays raises `ValueError`. -/
def computeDeltamax (refWindow : List (Fin k → K)) : Except PyErr (Fin k → K) :=
  match refWindow with
  | [] => .error .valueError
  | x :: rows => .ok (clip fun f => (colMax x rows f - colMin x rows f) / 2)

/-- `self.streamhash.fit_transform_partial(X).reshape(1, -1)`, l.48-50 and l.73-74, for a
projector with `k` components: the `k` dot products which `squeeze` and `reshape` leave as
they are. -/
def project (mmh3 : String → ℕ → ℕ) (p : StreamhashState K) (x : List K) : Fin k → K :=
  fun i => (List.zipWith (· * ·) x ((List.range x.length).map fun j =>
    Streamhash.hashString mmh3 p i (toString j))).sum

/-- `fit_partial`, l.36-62. -/
def fitPartial (mmh3 : String → ℕ → ℕ) (s : XStreamState K k) (x : List K) :
    Res (XStreamState K k) Unit :=
  let s := { s with step := s.step + 1 }
  let X := project mmh3 s.streamhash x
  let s := { s with curWindow := s.curWindow ++ [X], chains := s.chains.map (fitChain X) }
  if s.windowSize = 0 then .err .zeroDivision s
  else if s.step % s.windowSize = 0 then
    let s := { s with refWindow := some s.curWindow, curWindow := [] }
    match computeDeltamax (s.refWindow.getD []) with
    | .error e => .err e s
    | .ok deltamax =>
      let s := { s with chains := s.chains.map (setDeltamax deltamax) }
      .ok () { s with chains := s.chains.map nextWindow }
  else .ok () s

/-- `_HSChains.score`, l.193-199, the loop over the chains. -/
def scoreChains (log2 : K → K) (X : Fin k → K) : List (XsChain K k) → K → Except PyErr K
  | [], acc => .ok acc
  | c :: cs, acc =>
    match scoreChain log2 X c with
    | .error e => .error e
    | .ok v => scoreChains log2 X cs (acc + v)

/-- `score_partial`, l.64-77: the only entry of the returned array. -/
def scorePartial (mmh3 : String → ℕ → ℕ) (log2 : K → K) (s : XStreamState K k) (x : List K) :
    Res (XStreamState K k) (Num K) :=
  match scoreChains log2 (project mmh3 s.streamhash x) s.chains 0 with
  | .error e => .err e s
  | .ok total => .ok (npDiv total (s.chains.length : K)) s

/-- `xStream` as a detector. -/
def detector {β : Type*} (mmh3 : String → ℕ → ℕ) (log2 : K → K) :
    Detector (XStreamState K k) (List K) β (Num K) where
  fitPartial s x _ := fitPartial mmh3 s x
  scorePartial := scorePartial mmh3 log2

end XStream

end Pysad
