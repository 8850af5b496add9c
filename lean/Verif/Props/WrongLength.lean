import Verif.Model.WrongLength
import Verif.Model.KnnCad
import Verif.Props.Loda
import Verif.Props.HalfSpaceTrees
import Verif.Props.SimpleModels
import Verif.Props.SeasonalEsd
import Verif.Props.XStream

/-! Property C178: an instance with a wrong number of features is rejected. -/

namespace Pysad
open Spec

/-- Once instances with `n` features were fitted, and only such, an instance with another number of features is
rejected by `fit_partial` and by `score_partial`. -/
def Spec.RejectsOtherLengths {σ K β S : Type*} (d : Detector σ (List K) β S) (s : σ) (n : ℕ) : Prop :=
  ∀ cs : List (Call (List K) β), fitted cs ≠ [] → (∀ x ∈ fitted cs, x.length = n) →
    ∀ (x : List K) (y : Option β), x.length ≠ n →
      (∃ e, (call d (calls d s cs).2 (.fit x y)).1 = .raised e) ∧
      ∃ e, (call d (calls d s cs).2 (.score x)).1 = .raised e

/-! ### Detectors that reject -/

/-- **C178**, LODA. -/
theorem C178_loda {G β : Type*} (rng : LodaRng G ℝ) (hr : RandnShape rng) (log : ℝ → Num ℝ) (nBins nCuts : ℕ)
    (hn : 1 ≤ nBins) (hc : 1 ≤ nCuts) (g : G) (n : ℕ) :
    RejectsOtherLengths (Loda.detector (β := β) rng log) (Loda.new g nBins nCuts) n := by
  intro cs hne hlen x y hx
  have h := loda_inv (β := β) rng hr log nBins nCuts hn g cs
  generalize (calls (Loda.detector (β := β) rng log) (Loda.new g nBins nCuts) cs).2 = s at h ⊢
  obtain ⟨h1, h2, h3⟩ := h
  cases hf : fitted cs with
  | nil => exact absurd hf hne
  | cons x0 X =>
    rw [hf] at h3
    have h0 : x0.length = n := hlen x0 (by rw [hf]; exact List.mem_cons_self)
    obtain ⟨arr, ha, hl, hA⟩ := h3
    cases arr with
    | nil => simp at hl; omega
    | cons c arr =>
      have hp : c.projection.length = n := by
        rw [← h0]; exact (hA c List.mem_cons_self).choose_spec.1
      have hz : ∀ r, (Loda.zeroAt r c.projection).length = n := by
        intro r; unfold Loda.zeroAt; rw [List.length_mapIdx, hp]
      constructor
      · refine ⟨.valueError, ?_⟩
        simp only [call, Loda.detector, Loda.fitPartial, ha, Loda.fitCuts, Loda.project, hz, if_neg (Ne.symm hx)]
        rfl
      · refine ⟨.valueError, ?_⟩
        simp only [call, Loda.detector, Loda.scorePartial, ha, List.foldlM_cons, Loda.scoreCut, Loda.project, hp,
          if_neg (Ne.symm hx)]
        rfl

example (log : ℝ → Num ℝ) : ∃ e, (call (Loda.detector (β := Unit)
    ⟨fun g r c => (List.replicate r (List.replicate c 1), g), fun g n => (List.range n, g)⟩ log)
    (calls (Loda.detector (β := Unit) ⟨fun g r c => (List.replicate r (List.replicate c 1), g), fun g n =>
      (List.range n, g)⟩ log) (Loda.new () 10 100) [.fit [1, 2, 3] none]).2 (.score [1, 2])).1 = .raised e :=
  (C178_loda _ (fun g r c => by simp) log 10 100 (by norm_num) (by norm_num) () 3 [.fit [1, 2, 3] none]
    (by simp [fitted]) (by simp [fitted]) [1, 2] none (by simp)).2

/-- **C178**, Seasonal ESD, which is for single numbers: everything but a vector with one entry is rejected, and
leaves no trace. -/
theorem C178_sesd {β K : Type*} [Field K] [LinearOrder K] (env : SesdEnv K) (s : SesdState K) (X : NdArray K)
    (hX : ∀ v, X ≠ .vec [v]) (y : Option β) :
    call (Sesd.detector env) s (.fit X y) = (.raised .valueError, s) ∧
    call (Sesd.detector (β := β) env) s (.score X) = (.raised .valueError, s) := by
  have h : Sesd.asValue X = .error .valueError := by
    match X with
    | .scalar _ => rfl
    | .vec [] => rfl
    | .vec [v] => exact absurd rfl (hX v)
    | .vec (_ :: _ :: _) => rfl
    | .mat _ _ => rfl
    | .higher => rfl
  constructor
  · simp [call, Sesd.detector, Sesd.fitPartial, h]
  · simp [call, Sesd.detector, Sesd.scorePartial, Sesd.candidateWindow, h, Except.map, Except.bind, Res.ofExcept]

/-- **C178**, StandardAbsoluteDeviation, which is for single numbers: `fit_partial` rejects everything else, and
that leaves no trace. (`score_partial` does not: `C178_sad_refuted`.) -/
theorem C178_sad_fit_partial {β σ K : Type*} [Field K] [LinearOrder K] (sqrt : K → K) (sub : Statistic σ K K)
    (s : SadState σ K) (x : List K) (y : Option β) (hx : x.length ≠ 1) :
    call (standardAbsoluteDeviation sqrt sub) s (.fit x y) = (.raised .assertionError, s) := by
  match x with
  | [] => rfl
  | [_] => simp at hx
  | _ :: _ :: _ => rfl

/-- **C178**, MedianAbsoluteDeviation, likewise. -/
theorem C178_mad_fit_partial {β K : Type*} [Field K] [LinearOrder K] (s : MadState K) (x : List K) (y : Option β)
    (hx : x.length ≠ 1) : call medianAbsoluteDeviation s (.fit x y) = (.raised .assertionError, s) := by
  match x with
  | [] => rfl
  | [_] => simp at hx
  | _ :: _ :: _ => rfl

/-! ### Detectors that do not -/

/-- **C178 is false** for StandardAbsoluteDeviation: `score_partial` answers for two numbers. -/
theorem C178_sad_refuted (absolute : Bool) :
    ¬ RejectsOtherLengths (standardAbsoluteDeviation (β := Unit) Real.sqrt (averageMeter ℝ))
      (SadState.new (averageMeter ℝ) absolute) 1 := by
  intro h
  obtain ⟨-, e, he⟩ := h [.fit [1] none] (by simp [fitted]) (by simp [fitted]) [1, 2] none (by simp)
  simp [call, calls, standardAbsoluteDeviation, SadState.new, averageMeter, varianceMeter, sumMeter, sumSquaresMeter,
    countMeter, Res.mapState, Res.bind] at he

/-- **C178 is false** for MedianAbsoluteDeviation: `score_partial` answers for two numbers. -/
theorem C178_mad_refuted :
    ¬ RejectsOtherLengths (medianAbsoluteDeviation (β := Unit)) (MadState.new true 1 : MadState ℚ) 1 := by
  intro h
  obtain ⟨-, e, he⟩ := h [.fit [1] none] (by simp [fitted]) (by simp [fitted]) [1, 2] none (by simp)
  have : (call (medianAbsoluteDeviation (β := Unit)) (calls (medianAbsoluteDeviation (β := Unit))
      (MadState.new true 1 : MadState ℚ) [.fit [1] none]).2 (.score [1, 2])).1.isRaised = false := by decide +kernel
  rw [he] at this
  simp [Answer.isRaised] at this

/-! #### HalfSpaceTrees -/

namespace WrongLength
variable {K : Type*} [Field K] [LinearOrder K]

omit [Field K] in
theorem updateMass_append (D : ℕ) (x extra : List K) (ref : Bool) (t t' : HsTree K)
    (h : Hst.updateMass D x ref t = .ok () t') : Hst.updateMass D (x ++ extra) ref t = .ok () t' := by
  induction t generalizing t' with
  | nil => simp [Hst.updateMass] at h
  | node left right r l q p k ihl ihr =>
    simp only [Hst.updateMass] at h ⊢
    by_cases hk : k < D
    · rw [if_pos hk] at h ⊢
      cases hq : x[q]? with
      | none => rw [hq] at h; simp at h
      | some v =>
        have hq' : (x ++ extra)[q]? = some v := by
          rw [List.getElem?_append_left (List.getElem?_eq_some_iff.1 hq).1, hq]
        rw [hq] at h
        rw [hq']
        simp only at h ⊢
        by_cases hv : p < v
        · rw [if_pos hv] at h ⊢
          cases hr : Hst.updateMass D x ref right with
          | err e s => rw [hr] at h; simp [Res.mapState] at h
          | ok u s => rw [ihr s hr]; rw [hr] at h; exact h
        · rw [if_neg hv] at h ⊢
          cases hr : Hst.updateMass D x ref left with
          | err e s => rw [hr] at h; simp [Res.mapState] at h
          | ok u s => rw [ihl s hr]; rw [hr] at h; exact h
    · rw [if_neg hk] at h ⊢
      exact h

omit [Field K] in
theorem fitRoots_append (D : ℕ) (x extra : List K) (ref : Bool) (ts ts' : List (HsTree K))
    (h : Hst.fitRoots D x ref ts = .ok () ts') : Hst.fitRoots D (x ++ extra) ref ts = .ok () ts' := by
  induction ts generalizing ts' with
  | nil => exact h
  | cons t ts ih =>
    simp only [Hst.fitRoots] at h ⊢
    cases ht : Hst.updateMass D x ref t with
    | err e s => rw [ht] at h; simp at h
    | ok u t' =>
      rw [ht] at h
      rw [updateMass_append D x extra ref t t' ht]
      simp only at h ⊢
      cases hs : Hst.fitRoots D x ref ts with
      | err e s => rw [hs] at h; simp [Res.mapState] at h
      | ok u s => rw [ih s hs]; rw [hs] at h; exact h

theorem scoreTree_append (x extra : List K) (t : HsTree K) (v : K) (h : Hst.scoreTree x t = .ok v) :
    Hst.scoreTree (x ++ extra) t = .ok v := by
  induction t generalizing v with
  | nil => exact h
  | node left right r l q p k ihl ihr =>
    simp only [Hst.scoreTree] at h ⊢
    cases hq : x[q]? with
    | none => rw [hq] at h; simp at h
    | some a =>
      have hq' : (x ++ extra)[q]? = some a := by
        rw [List.getElem?_append_left (List.getElem?_eq_some_iff.1 hq).1, hq]
      rw [hq] at h
      rw [hq']
      simp only at h ⊢
      by_cases ha : p < a
      · rw [if_pos ha] at h ⊢
        cases hr : Hst.scoreTree x right with
        | error e => rw [hr] at h; simp [Except.map] at h
        | ok s => rw [ihr s hr]; rw [hr] at h; exact h
      · rw [if_neg ha] at h ⊢
        cases hr : Hst.scoreTree x left with
        | error e => rw [hr] at h; simp [Except.map] at h
        | ok s => rw [ihl s hr]; rw [hr] at h; exact h

theorem scoreRoots_append (x extra : List K) (ts : List (HsTree K)) (acc v : K)
    (h : ts.foldlM (fun acc t => (Hst.scoreTree x t).map (acc + ·)) acc = .ok v) :
    ts.foldlM (fun acc t => (Hst.scoreTree (x ++ extra) t).map (acc + ·)) acc = .ok v := by
  induction ts generalizing acc with
  | nil => exact h
  | cons t ts ih =>
    rw [List.foldlM_cons] at h ⊢
    cases ht : Hst.scoreTree x t with
    | error e => rw [ht] at h; simp [Except.map, bind, Except.bind] at h
    | ok a =>
      rw [scoreTree_append x extra t a ht]
      rw [ht] at h
      exact ih _ h

end WrongLength
open WrongLength

/-- **C178**, HalfSpaceTrees, as far as it holds: whatever is accepted is accepted with the same effect when
features are appended. So features beyond those of the bounds are ignored, and an instance that is too short is
accepted only if the missing features do not matter, whatever they are. -/
theorem C178_hst_partial {β K : Type*} [Field K] [LinearOrder K] (s : HstState K) (x extra : List K) :
    (∀ s' y, call (Hst.detector K β) s (.fit x y) = (.done, s') →
      call (Hst.detector K β) s (.fit (x ++ extra) y) = (.done, s')) ∧
    ∀ v s', call (Hst.detector K β) s (.score x) = (.value v, s') →
      call (Hst.detector K β) s (.score (x ++ extra)) = (.value v, s') := by
  constructor
  · intro s' y h
    simp only [call, Hst.detector, Hst.fitPartial] at h ⊢
    cases hr : Hst.fitRoots s.maxDepth x s.isFirstWindow s.roots with
    | err e t => rw [hr] at h; simp [Res.mapState, Res.bind] at h
    | ok u t =>
      rw [fitRoots_append _ x extra _ _ t hr]
      rw [hr] at h
      exact h
  · intro v s' h
    simp only [call, Hst.detector, Hst.scorePartial] at h ⊢
    cases hr : s.roots.foldlM (fun acc t => (Hst.scoreTree x t).map (acc + ·)) (0 : K) with
    | error e => rw [hr] at h; simp at h
    | ok a =>
      rw [scoreRoots_append x extra _ _ a hr]
      rw [hr] at h
      exact h

/-- A tree that looks at the second feature first: one that lacks it is rejected, one with a third is treated as
if it had not. -/
example : Hst.new (fun g n => ((g + 1) % n, g + 1)) [0, 0] [8, 8] 2 1 2 0 =
      .ok ⟨2, 2, [.node (.node (.node .nil .nil 0 0 0 0 2) (.node .nil .nil 0 0 0 0 2) 0 0 0 4 1)
        (.node (.node .nil .nil 0 0 0 0 2) (.node .nil .nil 0 0 0 0 2) 0 0 1 (6 : ℚ) 1) 0 0 1 4 0], true, 0⟩ ∧
    ∀ s : HstState ℚ, s = ⟨2, 2, [.node (.node (.node .nil .nil 0 0 0 0 2) (.node .nil .nil 0 0 0 0 2) 0 0 0 4 1)
        (.node (.node .nil .nil 0 0 0 0 2) (.node .nil .nil 0 0 0 0 2) 0 0 1 6 1) 0 0 1 4 0], true, 0⟩ →
      (call (Hst.detector ℚ Unit) s (.fit [1] none)).1 = .raised .indexError ∧
      (call (Hst.detector ℚ Unit) s (.fit [1, 5, 7] none)).1 = .done ∧
      call (Hst.detector ℚ Unit) s (.fit [1, 5, 7] none) = call (Hst.detector ℚ Unit) s (.fit [1, 5] none) := by
  constructor
  · decide +kernel
  · rintro s rfl
    decide +kernel

/-- **C178, the full statement for HalfSpaceTrees.** -/
def C178_hst_statement : Prop :=
  ∀ (randint : ℕ → ℕ → ℕ × ℕ), InRange randint → ∀ (mins maxes : List ℚ) (w m D g : ℕ)
    (s : HstState ℚ), 1 ≤ w → 1 ≤ m → 1 ≤ D → mins.length = maxes.length → mins ≠ [] →
    Hst.new randint mins maxes w m D g = .ok s → RejectsOtherLengths (Hst.detector ℚ Unit) s mins.length

/-- **C178 is false** for HalfSpaceTrees: one feature too many is accepted. -/
theorem C178_hst_refuted : ¬ C178_hst_statement := by
  intro h
  obtain ⟨⟨e, he⟩, -⟩ := h (fun g n => (g % n, g + 1)) (fun g n hn => Nat.mod_lt _ (by omega)) [0] [8] 2 1 2 0 _
    (by norm_num) le_rfl (by norm_num) rfl (by simp) rfl [.fit [1] none] (by simp [fitted]) (by simp [fitted])
    [1, 1] none (by simp)
  revert he
  have : ∀ a : Answer ℚ, a.isRaised = false → a = .raised e → False := by
    intro a h1 h2; rw [h2] at h1; simp [Answer.isRaised] at h1
  exact this _ (by decide +kernel)

/-- **C178 is false** for HalfSpaceTrees: an instance that lacks a feature can be accepted. -/
theorem C178_hst_short_refuted : ¬ C178_hst_statement := by
  intro h
  obtain ⟨⟨e, he⟩, -⟩ := h (fun g n => (0, g)) (fun g n hn => hn) [0, 0] [8, 8] 2 1 2 0 _
    (by norm_num) le_rfl (by norm_num) rfl (by simp) rfl [.fit [1, 1] none] (by simp [fitted]) (by simp [fitted])
    [1] none (by simp)
  revert he
  have : ∀ a : Answer ℚ, a.isRaised = false → a = .raised e → False := by
    intro a h1 h2; rw [h2] at h1; simp [Answer.isRaised] at h1
  exact this _ (by decide +kernel)

/-! #### KNNCAD -/

/-- **C178**, KNNCAD, which is for single numbers, as far as it holds: only an instance without features is
rejected, and all features but the first are ignored. -/
theorem C178_knncad_partial {β K : Type*} [Field K] [LinearOrder K] (inv : List (List K) → Option (List (List K)))
    (s : KnnCadState K) (v : K) (extra : List K) (y : Option β) :
    (call (KnnCad.detector inv) s (.fit [] y)).1 = .raised .indexError ∧
    call (KnnCad.detector inv) s (.fit (v :: extra) y) = call (KnnCad.detector inv) s (.fit [v] y) := ⟨rfl, rfl⟩

/-- **C178 is false** for KNNCAD. -/
theorem C178_knncad_refuted (inv : List (List ℚ) → Option (List (List ℚ))) (P : ℕ) :
    ¬ RejectsOtherLengths (KnnCad.detector (β := Unit) inv) (KnnCad.new P) 1 := by
  intro h
  obtain ⟨⟨e, he⟩, -⟩ := h [.fit [1] none] (by simp [fitted]) (by simp [fitted]) [1, 2] none (by simp)
  simp [call, calls, KnnCad.detector, KnnCad.fitPartial, KnnCad.new, KnnCad.dim] at he

/-! #### xStream -/

/-- **C178**, xStream, as far as it holds: an instance of any length is accepted (with a positive window size),
and what is missing counts as 0. -/
theorem C178_xstream_partial {β K : Type*} [Field K] [LinearOrder K] [IsStrictOrderedRing K] [FloorRing K] {k : ℕ}
    (mmh3 : String → ℕ → ℕ) (log2 : K → K) (s : XStreamState K k) (x : List K) (n : ℕ) (y : Option β) :
    (s.windowSize ≠ 0 → (call (XStream.detector mmh3 log2) s (.fit x y)).1 = .done) ∧
    call (XStream.detector mmh3 log2) s (.fit (x ++ List.replicate n 0) y) =
      call (XStream.detector mmh3 log2) s (.fit x y) ∧
    call (XStream.detector (β := β) mmh3 log2) s (.score (x ++ List.replicate n 0)) =
      call (XStream.detector (β := β) mmh3 log2) s (.score x) := by
  have hp : ∀ p : StreamhashState K, (XStream.project mmh3 p (x ++ List.replicate n 0) : Fin k → K) =
      XStream.project mmh3 p x := by
    intro p
    funext i
    unfold XStream.project
    rw [List.length_append, List.range_add, List.map_append,
      List.zipWith_append (by simp), List.sum_append]
    have hz : ∀ (m : ℕ) (l : List K), (List.zipWith (· * ·) (List.replicate m (0 : K)) l).sum = 0 := by
      intro m
      induction m with
      | zero => intro l; simp
      | succ m ih =>
        intro l
        cases l with
        | nil => simp
        | cons a l => rw [List.replicate_succ, List.zipWith_cons_cons, List.sum_cons, ih]; simp
    rw [hz, add_zero]
  refine ⟨?_, ?_, ?_⟩
  · intro hw
    simp only [call, XStream.detector, XStream.fitPartial, if_neg hw]
    by_cases hs : (s.step + 1) % s.windowSize = 0
    · simp only [if_pos hs, Option.getD_some]
      cases hc : s.curWindow with
      | nil => simp [XStream.computeDeltamax]
      | cons a l => simp [XStream.computeDeltamax]
    · simp only [if_neg hs]
  · simp only [call, XStream.detector, XStream.fitPartial, hp]
  · simp only [call, XStream.detector, XStream.scorePartial, hp]

/-- **C178 is false** for xStream, whatever its arguments are. -/
theorem C178_xstream_refuted {k : ℕ} (mmh3 : String → ℕ → ℕ) (log2 : ℚ → ℚ) (p : StreamhashState ℚ) (W n : ℕ)
    (hW : 1 ≤ W) (draws : List (XsDraw ℚ k)) :
    ¬ RejectsOtherLengths (XStream.detector (β := Unit) mmh3 log2) (XStream.new p W draws) n := by
  intro h
  obtain ⟨⟨e, he⟩, -⟩ := h [.fit (List.replicate n 0) none] (by simp [fitted]) (by simp [fitted])
    (List.replicate (n + 1) 0) none (by simp)
  have hw : (calls (XStream.detector (β := Unit) mmh3 log2) (XStream.new p W draws)
      [.fit (List.replicate n 0) none]).2.windowSize ≠ 0 := by
    have hk : ∀ (s : XStreamState ℚ k) (x : List ℚ), (XStream.fitPartial mmh3 s x).state.windowSize = s.windowSize := by
      intro s x
      simp only [XStream.fitPartial]
      split_ifs
      · rfl
      · split <;> rfl
      · rfl
    have h1 := hk (XStream.new p W draws) (List.replicate n 0)
    simp only [calls, call, XStream.detector]
    cases hf : XStream.fitPartial mmh3 (XStream.new p W draws) (List.replicate n 0) with
    | ok u s => rw [hf] at h1; exact fun h => by simp only [Res.state] at h1; rw [h1] at h; simp [XStream.new] at h; omega
    | err e s => rw [hf] at h1; exact fun h => by simp only [Res.state] at h1; rw [h1] at h; simp [XStream.new] at h; omega
  rw [(C178_xstream_partial (β := Unit) mmh3 log2 _ (List.replicate (n + 1) 0) 0 none).1 hw] at he
  simp at he

/-! #### RSHash -/

namespace WrongLength
variable {K : Type*} [Field K] [LinearOrder K] [IsStrictOrderedRing K] [FloorRing K] {dim : ℕ}

omit [IsStrictOrderedRing K] in
theorem entries_append (f : K) (x extra : List K) (ps : List (Fin dim × K)) (l : List ℤ)
    (h : RsHash.entries f x ps = some l) : RsHash.entries f (x ++ extra) ps = some l := by
  induction ps generalizing l with
  | nil => exact h
  | cons p ps ih =>
    simp only [RsHash.entries] at h ⊢
    cases hq : x[(p.1 : ℕ)]? with
    | none => rw [hq] at h; simp at h
    | some v =>
      have hq' : (x ++ extra)[(p.1 : ℕ)]? = some v := by
        rw [List.getElem?_append_left (List.getElem?_eq_some_iff.1 hq).1, hq]
      rw [hq'] 
      rw [hq] at h
      cases hl : RsHash.entries f x ps with
      | none => rw [hl] at h; simp at h
      | some l' => rw [ih l' hl]; rw [hl] at h; exact h

omit [IsStrictOrderedRing K] in
theorem entries_of_fn (f : K) (x : Fin dim → K) (ps : List (Fin dim × K)) :
    RsHash.entries f (List.ofFn x) ps = some (ps.map fun p => ⌊(x p.1 + p.2) / f⌋) := by
  induction ps with
  | nil => rfl
  | cons p ps ih =>
    simp only [RsHash.entries, ih, List.map_cons]
    rw [List.getElem?_ofFn]
    simp

omit [IsStrictOrderedRing K] in
theorem componentsArrays_append (pow2 log : K → K) (decay : K) (index : ℤ) (x extra : List K) (r : ℕ)
    (cs : List (RsComponent K dim)) (acc : K) (sks : List (RsSketch K)) (v : K) (sks' : List (RsSketch K))
    (h : RsHash.componentsArrays pow2 log decay index x r cs acc sks = .ok v sks') :
    RsHash.componentsArrays pow2 log decay index (x ++ extra) r cs acc sks = .ok v sks' := by
  induction cs generalizing r acc sks with
  | nil => exact h
  | cons c cs ih =>
    simp only [RsHash.componentsArrays] at h ⊢
    cases he : RsHash.entries c.f x c.dims with
    | none => rw [he] at h; simp at h
    | some l =>
      rw [entries_append _ _ extra _ l he]
      rw [he] at h
      simp only at h ⊢
      cases hm : RsHash.pyMin ((sks.map (RsHash.visit pow2 decay index ((r : ℤ) :: l))).map Prod.fst) with
      | error e => rw [hm] at h; simp at h
      | ok m => rw [hm] at h; exact ih _ _ _ h

omit [IsStrictOrderedRing K] in
theorem componentsArrays_ofFn (pow2 log : K → K) (decay : K) (index : ℤ) (x : Fin dim → K) (r : ℕ)
    (cs : List (RsComponent K dim)) (acc : K) (sks : List (RsSketch K)) :
    RsHash.componentsArrays pow2 log decay index (List.ofFn x) r cs acc sks =
      RsHash.components pow2 log decay index x r cs acc sks := by
  induction cs generalizing r acc sks with
  | nil => rfl
  | cons c cs ih =>
    simp only [RsHash.componentsArrays, RsHash.components, entries_of_fn, RsHash.cell, ih]
    split <;> simp_all

end WrongLength

/-- For instances of the right length, the model of RSHash for all lengths is the one of C72. -/
theorem rshash_arrays_right {K : Type*} [Field K] [LinearOrder K] [IsStrictOrderedRing K] [FloorRing K] {dim : ℕ}
    (pow2 log : K → K) (s : RsHashState K dim) (x : Fin dim → K) :
    RsHash.fitPartialArrays pow2 log s (List.ofFn x) = RsHash.fitPartial pow2 log s x := by
  simp only [RsHash.fitPartialArrays, RsHash.fitPartial, WrongLength.componentsArrays_ofFn]
  cases RsHash.components pow2 log s.decay s.index x 0 s.components 0 s.cmsketches <;> rfl

/-- **C178**, RSHash, as far as it holds: a fit that is accepted is accepted with the same effect when features
are appended; `score_partial` answers whatever it is given. -/
theorem C178_rshash_partial {β K : Type*} [Field K] [LinearOrder K] [IsStrictOrderedRing K] [FloorRing K] {dim : ℕ}
    (pow2 log : K → K) (s : RsHashState K dim) (x extra : List K) :
    (∀ s' y, call (RsHash.detectorArrays (β := β) pow2 log) s (.fit x y) = (.done, s') →
      call (RsHash.detectorArrays pow2 log) s (.fit (x ++ extra) y) = (.done, s')) ∧
    call (RsHash.detectorArrays (β := β) pow2 log) s (.score (x ++ extra)) =
      call (RsHash.detectorArrays (β := β) pow2 log) s (.score x) := by
  refine ⟨?_, rfl⟩
  intro s' y h
  simp only [call, RsHash.detectorArrays, RsHash.fitPartialArrays] at h ⊢
  cases hc : RsHash.componentsArrays pow2 log s.decay s.index x 0 s.components 0 s.cmsketches with
  | err e t => rw [hc] at h; simp at h
  | ok v t => rw [WrongLength.componentsArrays_append _ _ _ _ x extra _ _ _ _ v t hc]; rw [hc] at h; exact h

/-- **C178 is false** for RSHash, whatever its arguments are: `score_partial` never looks at its argument. -/
theorem C178_rshash_refuted {dim : ℕ} (pow2 log : ℚ → ℚ) (components : List (RsComponent ℚ dim)) (m w : ℕ) (decay : ℚ) :
    ¬ RejectsOtherLengths (RsHash.detectorArrays (β := Unit) pow2 log) (RsHash.new components m decay w) dim := by
  intro h
  obtain ⟨-, e, he⟩ := h [.fit (List.replicate dim 0) none] (by simp [fitted]) (by simp [fitted])
    (List.replicate (dim + 1) 0) none (by simp)
  simp [call, RsHash.detectorArrays] at he

/-! #### ExactStorm -/

/-- **C178 is false** for ExactStorm: `fit_partial` accepts everything. -/
theorem C178_storm_refuted (sqrt : ℚ → ℚ) (w n : ℕ) (r : ℚ) :
    ¬ RejectsOtherLengths (exactStormArrays (β := Unit) sqrt) (StormState.new w r) n := by
  intro h
  obtain ⟨⟨e, he⟩, -⟩ := h [.fit (List.replicate n 0) none] (by simp [fitted]) (by simp [fitted])
    (List.replicate (n + 1) 0) none (by simp)
  simp [call, exactStormArrays] at he

section
variable {β K : Type*} [Field K] [LinearOrder K] (sqrt : K → K)

theorem storm_arrays_score (s : StormState (List K) K) (x : List K) :
    (call (exactStormArrays (β := β) sqrt) s (.score x)).1 =
      if ∀ o ∈ s.window.get.dropLast, o.length = x.length then
        .value (nearFraction (euclidean sqrt) s.maxRadius s.window.get.dropLast x)
      else .raised .valueError := by
  simp only [call, exactStormArrays]
  generalize s.window.get.dropLast = older
  by_cases h0 : older = []
  · simp [h0, nearFraction]
  · rw [if_neg (by simpa using h0)]
    by_cases hl : ∀ o ∈ older, o.length = x.length
    · have hc : cdist sqrt older x = .ok (older.map fun o => euclidean sqrt o x) := by
        unfold cdist
        rw [if_pos (by simpa using hl)]
      rw [if_pos hl, hc]
      simp only [nearFraction, if_neg h0]
      rw [← List.countP_eq_length_filter, List.countP_map, List.length_map]
      rfl
    · have hc : cdist sqrt older x = .error .valueError := by
        unfold cdist
        rw [if_neg (by simpa using hl)]
      rw [if_neg hl, hc]

/-- **C178**, ExactStorm, as far as it holds: with `older` the instances fitted so far that are among the last
`w`, the newest excluded, a score is the fraction of `older` that is near if all of them have the length of the
argument, and a `ValueError` otherwise. -/
theorem C178_storm_partial (w : ℕ) (r : K) (cs : List (Call (List K) β)) (x : List K) :
    let older := (lastN w (fitted cs)).dropLast
    (call (exactStormArrays (β := β) sqrt) (calls (exactStormArrays sqrt) (StormState.new w r) cs).2 (.score x)).1 =
      if ∀ o ∈ older, o.length = x.length then .value (nearFraction (euclidean sqrt) r older x)
      else .raised .valueError := by
  have hs : (calls (exactStormArrays (β := β) sqrt) (StormState.new w r) cs).2 = ⟨r, ⟨w, lastN w (fitted cs)⟩⟩ := by
    refine calls_inv (d := exactStormArrays (β := β) sqrt)
      (P := fun cs s => s = (⟨r, ⟨w, lastN w (fitted cs)⟩⟩ : StormState (List K) K)) ?_ _ ?_ cs
    · intro cs s c h
      subst h
      rw [fitted_append]
      cases c with
      | fit x y =>
        simp only [call, exactStormArrays, fitted]
        congr 1
        rw [lastN_snoc]
        unfold Window.update
        simp only
        split <;> rfl
      | score x =>
        simp only [fitted, List.append_nil, call, exactStormArrays]
        split <;> rename_i h <;> split at h
        · cases h; rfl
        · split at h <;> cases h; rfl
        · cases h
        · split at h <;> cases h; rfl
    · simp [StormState.new, Window.new, fitted]
  intro older
  rw [hs]
  exact storm_arrays_score sqrt ⟨r, ⟨w, lastN w (fitted cs)⟩⟩ x

/-- **C178**, ExactStorm: an instance with another number of features that was fitted makes scores raise as long
as it is in the window and not the newest, also for instances of the right length; then they are as before. -/
theorem C178_storm_blocked (w : ℕ) (r : K) (cs ds : List (Call (List K) β)) (bad x : List K) (y : Option β)
    (hx : ∀ d ∈ fitted ds, d.length = x.length) (hbad : bad.length ≠ x.length) (hd : fitted ds ≠ []) :
    let a := (call (exactStormArrays (β := β) sqrt)
      (calls (exactStormArrays sqrt) (StormState.new w r) (cs ++ .fit bad y :: ds)).2 (.score x)).1
    ((fitted ds).length < w → a = .raised .valueError) ∧
    (w ≤ (fitted ds).length → a = .value (nearFraction (euclidean sqrt) r (lastN w (fitted ds)).dropLast x)) := by
  intro a
  have ha : a = _ := C178_storm_partial sqrt w r (cs ++ .fit bad y :: ds) x
  have hf : fitted (cs ++ .fit bad y :: ds) = fitted cs ++ (bad :: fitted ds) := by
    rw [fitted_append]; rfl
  rw [hf] at ha
  constructor
  · intro hw
    rw [ha, if_neg]
    intro h
    refine hbad (h bad ?_)
    have hlen : (fitted cs ++ bad :: fitted ds).length - w ≤ (fitted cs).length := by
      simp; omega
    unfold lastN
    rw [List.drop_append_of_le_length hlen, List.dropLast_append_of_ne_nil (by simp), List.dropLast_cons_of_ne_nil hd]
    simp
  · intro hw
    have : lastN w (fitted cs ++ (bad :: fitted ds)) = lastN w (fitted ds) := by
      rw [List.append_cons]
      exact lastN_append_of_le hw
    rw [this] at ha
    rw [ha, if_pos]
    intro o ho
    exact hx o ((lastN_suffix w _).subset (List.dropLast_subset _ ho))

/-- One instance with a single feature blocks the scores of instances with two. -/
example (r : K) : (call (exactStormArrays (β := Unit) sqrt) (calls (exactStormArrays (β := Unit) sqrt) (StormState.new 5 r)
    [.fit [0, 0] none, .fit [1] none, .fit [0, 0] none]).2 (.score [0, 0])).1 = .raised .valueError :=
  (C178_storm_blocked sqrt 5 r [.fit [0, 0] none] [.fit [0, 0] none] [1] [0, 0] none (by simp [fitted])
    (by simp) (by simp [fitted])).1 (by simp [fitted])

end

end Pysad
