import Verif.Props.HalfSpaceTrees
import Verif.Model.SimpleModels
import Verif.Model.XStreamInit
import Verif.Model.RelativeEntropy
import Verif.Model.SeasonalEsd
import Verif.Model.Integrations
import Verif.Model.RsHash
import Verif.Model.Loda
import Verif.Model.Rrcf
import Verif.Model.KnnCad
import Verif.Model.KitNet
import Verif.Model.Inqmad
import Mathlib.Data.Rat.Floor

/-! C169: asking a detector for a score before anything was fitted. -/

namespace Pysad

open Spec

namespace Spec

/-- Whatever instances (satisfying `P`) a new detector is asked to score, one after the other and
before the first fit, every call is answered by `a`. -/
def AnswersAll {σ α β S : Type*} (d : Detector σ α β S) (s0 : σ) (P : α → Prop) (a : Answer S) : Prop :=
  ∀ xs : List α, (∀ x ∈ xs, P x) → (calls d s0 (xs.map .score)).1 = xs.map fun _ => a

/-- C169: before the first fit, every score is one and the same number; `number` tells which values of
the score type are numbers. -/
def UntrainedNeutral {σ α β S : Type*} (d : Detector σ α β S) (s0 : σ) (P : α → Prop)
    (number : S → Prop) : Prop :=
  ∃ v, number v ∧ AnswersAll d s0 P (.value v)

end Spec

namespace Untrained

variable {σ α β S : Type*} {d : Detector σ α β S} {s0 : σ} {P : α → Prop}

theorem answersAll {a : Answer S} (h : ∀ x, P x → call d s0 (.score x) = (a, s0)) :
    AnswersAll d s0 P a := by
  intro xs hxs
  induction xs with
  | nil => rfl
  | cons x xs ih =>
    have hx := h x (hxs x (by simp))
    simp only [List.map_cons, calls, hx]
    rw [ih fun y hy => hxs y (by simp [hy])]

theorem not_neutral {a : Answer S} {number : S → Prop} (x : α) (hx : P x) (h : AnswersAll d s0 P a)
    (ha : ∀ v, number v → a ≠ .value v) : ¬ UntrainedNeutral d s0 P number := by
  rintro ⟨v, hv, hall⟩
  have h1 := h [x] (by simpa using hx)
  rw [hall [x] (by simpa using hx)] at h1
  simp only [List.map_cons, List.map_nil, List.cons.injEq, and_true] at h1
  exact ha v hv h1.symm

end Untrained

open Untrained

/-! ### Detectors that answer -/

/-- **C169, `ExactStorm`.** 0. -/
theorem C169_storm {α β K : Type*} [Field K] [LinearOrder K] (dist : α → α → K) (w : ℕ) (r : K) :
    AnswersAll (exactStorm (β := β) dist) (StormState.new w r) (fun _ => True) (.value 0) :=
  answersAll fun _ _ => rfl

/-- **C169, `NullModel`.** 1/2. -/
theorem C169_null {α β K : Type*} [Field K] :
    AnswersAll (nullModel α β (K := K)) () (fun _ => True) (.value (1 / 2)) :=
  answersAll fun _ _ => rfl

/-- **C169, `HalfSpaceTrees`.** 0. -/
theorem C169_hst {β K G : Type*} [Field K] [LinearOrder K] (randint : G → ℕ → ℕ × G)
    (hr : InRange randint) (mins maxes : List K) (hd : 1 ≤ maxes.length) (w n D : ℕ) (hw : 1 ≤ w)
    (g : G) (s0 : HstState K) (h0 : Hst.new randint mins maxes w n D g = .ok s0) :
    AnswersAll (Hst.detector K β) s0 (fun x => x.length = maxes.length) (.value 0) := by
  refine answersAll fun x hx => ?_
  have h := C53_hst_score (β := β) randint hr mins maxes hd w n D hw g s0 h0 [] (by simp [fitted]) x hx
  simp only [calls, Hst.detector, Hst.scorePartial, fitted] at h
  simp only [call, Hst.detector, Hst.scorePartial]
  cases hf : s0.roots.foldlM (fun acc t => (Hst.scoreTree x t).map (acc + ·)) (0 : K) with
  | error e => rw [hf] at h; simp [Res.out] at h
  | ok v =>
    rw [hf] at h
    simp only [Res.out, Except.ok.injEq] at h
    simp [h, referenceWindow, neighbours]

/-- **C169, `RelativeEntropy`.** 0. -/
theorem C169_relent {β K : Type*} [Field K] [LinearOrder K] [IsStrictOrderedRing K] [FloorRing K]
    (entropy : List (Num K) → List (Num K) → Num K) (isf : ℤ → Num K) (lo hi : K) (n W : ℕ)
    (s0 : RelEntState K) (h0 : RelEnt.new isf lo hi n W = .ok s0) :
    AnswersAll (RelEnt.detector (β := β) entropy) s0 (fun _ => True) (.value 0) := by
  unfold RelEnt.new at h0
  split_ifs at h0
  cases h0
  exact answersAll fun x _ => by simp [call, RelEnt.detector, RelEnt.scorePartial]

/-- **C169, `SeasonalESD` and `SeasonalHybridESD`.** 0. -/
theorem C169_sesd {β K : Type*} [Field K] [LinearOrder K] (env : SesdEnv K) (hybrid : Bool)
    (period w k : ℤ) (alpha : K) (s0 : SesdState K)
    (h0 : Sesd.new hybrid period w k alpha = .ok s0) :
    AnswersAll (Sesd.detector (β := β) env) s0 (fun x => ∃ v, x = .vec [v]) (.value 0) := by
  unfold Sesd.new ModifiedStl.new at h0
  split_ifs at h0 with h1 h2 h3 h4 h5
  · cases h0
  · simp only [Except.map, h2, if_false] at h0
    cases h0
    refine answersAll fun x hx => ?_
    obtain ⟨v, rfl⟩ := hx
    have : (1 : ℕ) < w.toNat := by omega
    simp [call, Sesd.detector, Sesd.scorePartial, Sesd.candidateWindow, Sesd.asValue, Except.map,
      Except.bind, Sesd.scoreWindow, Window.get, Window.new, Res.ofExcept]
    split_ifs <;> simp_all
    omega

namespace Untrained
variable {K : Type*} [Field K] [LinearOrder K] [IsStrictOrderedRing K] [FloorRing K] {k : ℕ}

omit [IsStrictOrderedRing K] in
theorem bincountLoop_new (X : Fin k → K) (c : XsChain K k) (hc : c.heap = fun _ _ => none) :
    ∀ (fs : List (Fin k)) (depth : ℕ) (st : (Fin k → K) × (Fin k → ℕ)),
      XStream.bincountLoop X c depth fs st = List.replicate fs.length 0
  | [], _, _ => rfl
  | f :: fs, depth, st => by
    simp [XStream.bincountLoop, bincountLoop_new X c hc fs, hc, List.replicate_succ]

omit [Field K] [IsStrictOrderedRing K] [FloorRing K] in
theorem foldl_min {l : List K} {a : K} (h : ∀ x ∈ l, a ≤ x) : l.foldl min a = a := by
  induction l with
  | nil => rfl
  | cons x l ih =>
    rw [List.foldl_cons, min_eq_left (h x (by simp)), ih fun y hy => h y (by simp [hy])]

theorem scoreChain_new (log2 : K → K) (h1 : log2 1 = 0) (X : Fin k → K) (c : XsChain K k)
    (hc : c.heap = fun _ _ => none) (hf : c.fs ≠ []) : XStream.scoreChain log2 X c = .ok (-1) := by
  unfold XStream.scoreChain XStream.bincount
  rw [bincountLoop_new X c hc]
  obtain ⟨f, fs, e⟩ := List.exists_cons_of_ne_nil hf
  rw [e, List.length_cons, List.replicate_succ, List.zipIdx_cons]
  simp only [List.map_cons, Nat.cast_zero, add_zero, h1, zero_add, Nat.cast_one]
  simp only [XStream.npMin, Except.map]
  rw [foldl_min]
  intro x hx
  obtain ⟨p, hp, rfl⟩ := List.mem_map.1 hx
  have hp1 : p.1 = 0 := by
    have := List.fst_mem_of_mem_zipIdx hp
    exact List.eq_of_mem_replicate this
  rw [hp1]
  simp only [Nat.cast_zero, add_zero, h1, zero_add]
  have : (0 : K) ≤ (p.2 : K) := Nat.cast_nonneg _
  push_cast
  linarith

omit [IsStrictOrderedRing K] in
theorem scoreChains_new (log2 : K → K) (X : Fin k → K) :
    ∀ (cs : List (XsChain K k)) (acc : K),
      (∀ c ∈ cs, XStream.scoreChain log2 X c = .ok (-1)) →
      XStream.scoreChains log2 X cs acc = .ok (acc - cs.length)
  | [], acc, _ => by simp [XStream.scoreChains]
  | c :: cs, acc, h => by
    rw [XStream.scoreChains, h c (by simp)]
    simp only
    rw [scoreChains_new log2 X cs _ fun c hc => h c (by simp [hc])]
    congr 1
    push_cast [List.length_cons]
    ring

end Untrained

/-- **C169, `xStream`.** -1. -/
theorem C169_xstream {β K : Type*} [Field K] [LinearOrder K] [IsStrictOrderedRing K] [FloorRing K] {k : ℕ}
    (mmh3 : String → ℕ → ℕ) (log2 : K → K) (h1 : log2 1 = 0) (p : StreamhashState K) (W : ℕ)
    (draws : List (XsDraw K k)) (hc : draws ≠ []) (hdepth : ∀ c ∈ draws, c.fs ≠ []) :
    AnswersAll (XStream.detector (β := β) mmh3 log2) (XStream.new p W draws) (fun _ => True)
      (.value (.fin (-1))) := by
  refine answersAll fun x _ => ?_
  have hn : ((draws.length : ℕ) : K) ≠ 0 := by
    exact_mod_cast fun h => hc (List.length_eq_zero_iff.1 h)
  have h := scoreChains_new log2 (XStream.project (k := k) mmh3 p x)
    (XStream.new p W draws).chains 0 (by
      intro c hcm
      obtain ⟨dr, hdr, rfl⟩ := List.mem_map.1 hcm
      exact scoreChain_new log2 h1 _ _ rfl (hdepth dr hdr))
  have e : (XStream.new p W draws).chains.length = draws.length := by simp [XStream.new]
  simp only [call, XStream.detector, XStream.scorePartial]
  rw [show (XStream.new p W draws).streamhash = p from rfl, h, e]
  simp [npDiv, hn]

/-- One chain of depth 2 on one projected feature: two questions, two times -1. -/
example : (calls (XStream.detector (β := Unit) (fun _ _ => 0) (fun x : ℚ => x - 1))
    (XStream.new (k := 1) ⟨1, 1, 1⟩ 25 [⟨[0, 0], fun _ => 1 / 3⟩]) [.score [1], .score [5]]).1 =
    [.value (.fin (-1)), .value (.fin (-1))] :=
  C169_xstream (β := Unit) _ (fun x : ℚ => x - 1) (by norm_num) _ _ [⟨[0, 0], fun _ => 1 / 3⟩]
    (by simp) (by simp) [[1], [5]] (by simp)

/-- The arguments of a Seasonal ESD that the theorem is about exist. -/
example : ∃ s0 : SesdState ℚ, Sesd.new false 3 12 2 (1 / 20) = .ok s0 := by
  refine ⟨⟨false, 3, 12, 2, 1 / 20, Window.new 12, ⟨3, some 12, some (Window.new 12)⟩⟩, ?_⟩
  · simp [Sesd.new, ModifiedStl.new, Except.map]
    norm_num

/-! ### Detectors that do not -/

/-- **C169, `RSHash`.** `None`. -/
theorem C169_rshash_refuted {β K : Type*} [Field K] [LinearOrder K] [IsStrictOrderedRing K] [FloorRing K]
    {dim : ℕ} (pow2 log : K → K) (cs : List (RsComponent K dim)) (m : ℕ) (decay : K) (h : ℕ) :
    AnswersAll (RsHash.detector (β := β) pow2 log) (RsHash.new cs m decay h) (fun _ => True)
        (.value none) ∧
      ¬ UntrainedNeutral (RsHash.detector (β := β) pow2 log) (RsHash.new cs m decay h) (fun _ => True)
        (fun v => v ≠ none) := by
  have h : AnswersAll (RsHash.detector (β := β) pow2 log) (RsHash.new cs m decay h) (fun _ => True)
      (.value none) := answersAll fun _ _ => rfl
  exact ⟨h, not_neutral (fun _ => 0) trivial h fun v hv he => hv (Answer.value.inj he).symm⟩

/-- **C169, `MedianAbsoluteDeviation`.** `IndexError`. -/
theorem C169_mad_refuted {β K : Type*} [Field K] [LinearOrder K] (absolute : Bool) (b : K) :
    AnswersAll (medianAbsoluteDeviation (β := β)) (MadState.new (K := K) absolute b) (fun _ => True)
        (.raised .indexError) ∧
      ¬ UntrainedNeutral (medianAbsoluteDeviation (β := β)) (MadState.new (K := K) absolute b)
        (fun _ => True) (fun _ => True) := by
  have h : AnswersAll (medianAbsoluteDeviation (β := β)) (MadState.new (K := K) absolute b)
      (fun _ => True) (.raised .indexError) := answersAll fun _ _ => rfl
  exact ⟨h, not_neutral [] trivial h fun v _ he => by cases he⟩

/-- **C169, `StandardAbsoluteDeviation` with the median.** `IndexError`. -/
theorem C169_sad_median_refuted {β K : Type*} [Field K] [LinearOrder K] (sqrt : K → K) (absolute : Bool)
    (s0 : SadObject K) (h0 : SadObject.new "median" absolute = .ok s0) :
    AnswersAll (SadObject.detector (β := β) sqrt) s0 (fun _ => True) (.raised .indexError) ∧
      ¬ UntrainedNeutral (SadObject.detector (β := β) sqrt) s0 (fun _ => True) (fun _ => True) := by
  cases h0
  have h : AnswersAll (SadObject.detector (β := β) sqrt)
      (.median (SadState.new (medianMeter K) absolute)) (fun _ => True) (.raised .indexError) :=
    answersAll fun _ _ => rfl
  exact ⟨h, not_neutral [] trivial h fun v _ he => by cases he⟩

/-- **C169, `StandardAbsoluteDeviation` with the mean.** `ZeroDivisionError`. -/
theorem C169_sad_mean_refuted {β K : Type*} [Field K] [LinearOrder K] (sqrt : K → K) (absolute : Bool)
    (s0 : SadObject K) (h0 : SadObject.new "mean" absolute = .ok s0) :
    AnswersAll (SadObject.detector (β := β) sqrt) s0 (fun _ => True) (.raised .zeroDivision) ∧
      ¬ UntrainedNeutral (SadObject.detector (β := β) sqrt) s0 (fun _ => True) (fun _ => True) := by
  have e : s0 = .mean (SadState.new (averageMeter K) absolute) := by
    simp [SadObject.new] at h0
    exact h0.symm
  subst e
  have h : AnswersAll (SadObject.detector (β := β) sqrt)
      (.mean (SadState.new (averageMeter K) absolute)) (fun _ => True) (.raised .zeroDivision) :=
    answersAll fun _ _ => rfl
  exact ⟨h, not_neutral [] trivial h fun v _ he => by cases he⟩

/-- **C169, `LODA`.** `AttributeError`. -/
theorem C169_loda_refuted {G β K : Type*} [Field K] [LinearOrder K] (rng : LodaRng G K)
    (log : K → Num K) (g : G) (bins cuts : ℕ) (hc : cuts ≠ 0) :
    AnswersAll (Loda.detector (β := β) rng log) (Loda.new g bins cuts) (fun _ => True)
        (.raised .attributeError) ∧
      ¬ UntrainedNeutral (Loda.detector (β := β) rng log) (Loda.new g bins cuts) (fun _ => True)
        (fun _ => True) := by
  have h : AnswersAll (Loda.detector (β := β) rng log) (Loda.new g bins cuts) (fun _ => True)
      (.raised .attributeError) :=
    answersAll fun x _ => by simp [call, Loda.detector, Loda.scorePartial, Loda.new, hc]
  exact ⟨h, not_neutral [] trivial h fun v _ he => by cases he⟩

/-- **C169, `KitNet`.** `AttributeError`. -/
theorem C169_kitnet_refuted {β K : Type*} [Field K] [LinearOrder K] [FloorRing K] (env : KnEnv K)
    (n : ℕ) (m : ℤ) (gf : Option ℕ) (ga : ℕ) (lr hr : K) :
    AnswersAll (KitNet.detector (β := β) env) (KitNet.new n m gf ga lr hr) (fun _ => True)
        (.raised .attributeError) ∧
      ¬ UntrainedNeutral (KitNet.detector (β := β) env) (KitNet.new n m gf ga lr hr) (fun _ => True)
        (fun _ => True) := by
  have h : AnswersAll (KitNet.detector (β := β) env) (KitNet.new n m gf ga lr hr) (fun _ => True)
      (.raised .attributeError) := answersAll fun _ _ => rfl
  exact ⟨h, not_neutral (fun _ => 0) trivial h fun v _ he => by cases he⟩

/-- **C169, `KNNCAD`.** `AttributeError`. -/
theorem C169_knncad_refuted {β K : Type*} [Field K] [LinearOrder K]
    (inv : List (List K) → Option (List (List K))) (p : ℕ) :
    AnswersAll (KnnCad.detector (β := β) inv) (KnnCad.new p) (fun _ => True)
        (.raised .attributeError) ∧
      ¬ UntrainedNeutral (KnnCad.detector (β := β) inv) (KnnCad.new p) (fun _ => True)
        (fun _ => True) := by
  have h : AnswersAll (KnnCad.detector (β := β) inv) (KnnCad.new p) (fun _ => True)
      (.raised .attributeError) := answersAll fun _ _ => rfl
  exact ⟨h, not_neutral [] trivial h fun v _ he => by cases he⟩

/-- **C169, `Inqmad`.** `AttributeError`. -/
theorem C169_inqmad_refuted {β K : Type*} [Field K] {n d : ℕ} (env : InqEnv K n d) (b : ℕ)
    (hb : b ≠ 0) :
    AnswersAll (Inqmad.detector (β := β) env) (Inqmad.new b) (fun _ => True)
        (.raised .attributeError) ∧
      ¬ UntrainedNeutral (Inqmad.detector (β := β) env) (Inqmad.new b) (fun _ => True)
        (fun _ => True) := by
  have h : AnswersAll (Inqmad.detector (β := β) env) (Inqmad.new b) (fun _ => True)
      (.raised .attributeError) :=
    answersAll fun x _ => by simp [call, Inqmad.detector, Inqmad.scorePartial, Inqmad.trace,
      Inqmad.new, hb]
  exact ⟨h, not_neutral (fun _ => 0) trivial h fun v _ he => by cases he⟩

/-- **C169, `RobustRandomCutForest`.** `AttributeError`, from the tree library. -/
theorem C169_rrcf_refuted {τ α β K G : Type*} [Field K] (api : RcTreeApi τ α K G) (g : G)
    (trees size : ℕ) (ht : trees ≠ 0) (x : α) :
    AnswersAll (Rrcf.detector (β := β) api) (Rrcf.new api g trees size) (fun _ => True)
        (.raised .attributeError) ∧
      ¬ UntrainedNeutral (Rrcf.detector (β := β) api) (Rrcf.new api g trees size) (fun _ => True)
        (fun _ => True) := by
  obtain ⟨n, rfl⟩ := Nat.exists_eq_succ_of_ne_zero ht
  have h : AnswersAll (Rrcf.detector (β := β) api) (Rrcf.new api g (n + 1) size) (fun _ => True)
      (.raised .attributeError) :=
    answersAll fun x _ => by
      simp [call, Rrcf.detector, Rrcf.scorePartial, Rrcf.new, List.replicate_succ, Rrcf.scoreTrees,
        Rrcf.scoreTree, api.find_none _ _ api.leaves_empty, Res.mapState]
  exact ⟨h, not_neutral x trivial h fun v _ he => by cases he⟩

/-- **C169, `PerfectModel`.** `IndexError`. -/
theorem C169_perfect_refuted {α β : Type*} (x : α) :
    AnswersAll (perfectModel α β) [] (fun _ => True) (.raised .indexError) ∧
      ¬ UntrainedNeutral (perfectModel α β) [] (fun _ => True) (fun _ => True) := by
  have h : AnswersAll (perfectModel α β) [] (fun _ => True) (.raised .indexError) :=
    answersAll fun _ _ => rfl
  exact ⟨h, not_neutral x trivial h fun v _ he => by cases he⟩

/-- **C169, `ReferenceWindowModel` and `IForestASD` without an initial window.** `AttributeError`. -/
theorem C169_refwindow_refuted {G M α β S : Type*} (b : BatchDetector G M α β S) (g : G) (w sl : ℕ)
    (y : Option (List β)) (s0 : RefWindowState G M α β) (x : α)
    (h0 : RefWindow.new b g w sl none y = .ok () s0) :
    AnswersAll (RefWindow.detector b) s0 (fun _ => True) (.raised .attributeError) ∧
      ¬ UntrainedNeutral (RefWindow.detector b) s0 (fun _ => True) (fun _ => True) := by
  cases h0
  have h : AnswersAll (RefWindow.detector b) ⟨g, .none, w, sl, [], [], none, y, false⟩
      (fun _ => True) (.raised .attributeError) := answersAll fun _ _ => rfl
  exact ⟨h, not_neutral x trivial h fun v _ he => by cases he⟩

end Pysad
