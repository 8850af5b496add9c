import Verif.Props.KitNetRange
import Verif.Props.Extreme
import Verif.Props.Deviation
import Verif.Props.Inqmad
import Verif.Props.SimpleModels
import Verif.Props.HalfSpaceTrees
import Verif.Props.HstGrid
import Mathlib.Topology.Instances.Real.Lemmas
import Mathlib.Topology.Algebra.GroupWithZero
import Mathlib.Analysis.SpecialFunctions.Exp

/-! Property C150: nearby instances get nearby scores. -/

namespace Pysad

open Spec

/-! ### The deviation detectors -/

section
variable {K β : Type*} [Field K] [LinearOrder K] [IsStrictOrderedRing K]

theorem scaled_lipschitz (absolute : Bool) (m c x y : K) (hc : 0 < c) :
    |(if absolute then |(x - m) / c| else (x - m) / c) -
      (if absolute then |(y - m) / c| else (y - m) / c)| ≤ |x - y| / c := by
  have h : |(x - m) / c - (y - m) / c| = |x - y| / c := by
    rw [← sub_div, abs_div, abs_of_pos hc]; congr 2; ring
  cases absolute
  · simp only [Bool.false_eq_true, if_false]; exact h.le
  · simp only [if_true]; exact (abs_abs_sub_abs_le _ _).trans h.le

/-- **C150 (MedianAbsoluteDeviation).** In any state with a fitted value, the scores of two values
differ by at most their distance over the scale, hence by at most `10^10` times their distance. -/
theorem C150_mad (b : K) (hb : 0 ≤ b) (absolute : Bool) (cs : List (Call (List K) β))
    (hne : univariate (fitted cs) ≠ []) :
    ∃ scale, 1 / 10 ^ 10 ≤ scale ∧ ∀ x y, ∃ r r',
      ((medianAbsoluteDeviation (β := β)).scorePartial
        (calls medianAbsoluteDeviation (MadState.new absolute b) cs).2 [x]).out = .ok [.fin r] ∧
      ((medianAbsoluteDeviation (β := β)).scorePartial
        (calls medianAbsoluteDeviation (MadState.new absolute b) cs).2 [y]).out = .ok [.fin r'] ∧
      |r - r'| ≤ |x - y| / scale := by
  obtain ⟨m, ds, mad, h1, h2, h3, -⟩ := C67_mad_score b hb absolute cs hne []
  have hmad : 0 ≤ mad := by
    refine medianOf_nonneg h3 ?_
    intro y hy
    obtain ⟨i, hi, rfl⟩ := List.mem_iff_getElem.1 (show y ∈ ds by simpa using hy)
    have hi' : i < (univariate (fitted cs)).length := h2.1 ▸ hi
    obtain ⟨m', -, h6⟩ := h2.2 i _ (List.getElem?_eq_getElem hi')
    rw [List.getElem?_eq_getElem hi] at h6
    simp only [Option.some.injEq] at h6
    rw [h6]; exact abs_nonneg _
  have h0 : (0 : K) < 1 / 10 ^ 10 := by positivity
  refine ⟨b * mad + 1 / 10 ^ 10, le_add_of_nonneg_left (by positivity), fun x y => ?_⟩
  have key : ∀ z, ((medianAbsoluteDeviation (β := β)).scorePartial
      (calls medianAbsoluteDeviation (MadState.new absolute b) cs).2 [z]).out =
      .ok [.fin (if absolute then |(z - m) / (b * mad + 1 / 10 ^ 10)|
        else (z - m) / (b * mad + 1 / 10 ^ 10))] := by
    intro z
    obtain ⟨m', ds', mad', e1, e2, e3, e4⟩ := C67_mad_score b hb absolute cs hne [z]
    rw [h1] at e1
    rw [runningDeviations_unique h2 e2] at h3
    rw [h3] at e3
    cases e1; cases e3
    simpa using e4
  exact ⟨_, _, key x, key y, scaled_lipschitz absolute m _ x y (by positivity)⟩

end

/-- **C150 (StandardAbsoluteDeviation).** The same, with the mean and with the median. -/
theorem C150_sad {β : Type*} (name : String) (absolute : Bool) (s0 : SadObject ℝ)
    (h0 : SadObject.new name absolute = .ok s0) (cs : List (Call (List ℝ) β))
    (hne : univariate (fitted cs) ≠ []) :
    ∃ scale : ℝ, 1 / 10 ^ 10 ≤ scale ∧ ∀ x y, ∃ r r',
      ((SadObject.detector (β := β) Real.sqrt).scorePartial
        (calls (SadObject.detector Real.sqrt) s0 cs).2 [x]).out = .ok [.fin r] ∧
      ((SadObject.detector (β := β) Real.sqrt).scorePartial
        (calls (SadObject.detector Real.sqrt) s0 cs).2 [y]).out = .ok [.fin r'] ∧
      |r - r'| ≤ |x - y| / scale := by
  have hpos : (0 : ℝ) < 1 / 10 ^ 10 := by positivity
  have hsq := Real.sqrt_nonneg (varianceOf (K := ℝ) (univariate (fitted cs)))
  refine ⟨Real.sqrt (varianceOf (K := ℝ) (univariate (fitted cs))) + 1 / 10 ^ 10, by linarith,
    fun x y => ?_⟩
  obtain ⟨c1, c2, c3⟩ := C68_sad_statistic (β := β) name absolute
  by_cases hn : name = "mean"
  · obtain ⟨s1, e, h⟩ := c1 hn
    rw [h0] at e; cases e
    have h1 := h cs [x] hne
    have h2 := h cs [y] hne
    exact ⟨_, _, h1, h2, scaled_lipschitz absolute _ _ x y (by linarith)⟩
  · by_cases hn' : name = "median"
    · obtain ⟨s1, e, h⟩ := c2 hn'
      rw [h0] at e; cases e
      obtain ⟨m, g1, h1⟩ := h cs [x] hne
      obtain ⟨m', g2, h2⟩ := h cs [y] hne
      rw [g1] at g2; cases g2
      exact ⟨_, _, h1, h2, scaled_lipschitz absolute _ _ x y (by linarith)⟩
    · rw [c3 hn hn'] at h0; cases h0

/-! ### KitNet -/

theorem continuous_sumTo {X : Type*} [TopologicalSpace X] (N : ℕ) (f : X → ℕ → ℝ)
    (h : ∀ i, Continuous fun x => f x i) : Continuous fun x => Da.sumTo N (f x) := by
  induction N with
  | zero => simpa [Da.sumTo] using continuous_const
  | succ N ih =>
    have : (fun x => Da.sumTo (N + 1) (f x)) = fun x => Da.sumTo N (f x) + f x N := by
      funext x
      simp [Da.sumTo, List.range_succ]
    rw [this]
    exact ih.add (h N)

theorem continuous_meanTo {X : Type*} [TopologicalSpace X] (N : ℕ) (f : X → ℕ → ℝ)
    (h : ∀ i, Continuous fun x => f x i) : Continuous fun x => Da.meanTo N (f x) :=
  (continuous_sumTo N f h).div_const _

theorem continuous_logistic : Continuous logistic := by
  unfold logistic
  refine continuous_const.div (by fun_prop) fun x => ?_
  have := Real.exp_pos (-x)
  positivity

/-- The error of a trained autoencoder is a continuous function of its input. -/
theorem da_execute_continuous {X : Type*} [TopologicalSpace X] (env : KnEnv ℝ)
    (hsq : env.sqrt = Real.sqrt) (hsig : env.sigmoid = logistic) (s : DaState ℝ)
    (hs : s.norm ≠ none) (f : X → ℕ → ℝ) (hf : ∀ i, Continuous fun x => f x i) :
    ∃ F : X → ℝ, Continuous F ∧ ∀ x, Da.execute env s (f x) = .fin (F x) := by
  obtain ⟨norm, hn⟩ := Option.ne_none_iff_exists'.1 hs
  have h1 : ∀ i, Continuous fun x => Da.normalise norm (f x) i := fun i =>
    ((hf i).sub continuous_const).div_const _
  have h2 : ∀ j, Continuous fun x => Da.hidden env s (Da.normalise norm (f x)) j := by
    intro j
    unfold Da.hidden
    rw [hsig]
    exact continuous_logistic.comp ((continuous_sumTo _ _ fun i =>
      (h1 i).mul continuous_const).add continuous_const)
  have h3 : ∀ i, Continuous fun x =>
      Da.visible env s (Da.hidden env s (Da.normalise norm (f x))) i := by
    intro i
    unfold Da.visible
    rw [hsig]
    exact continuous_logistic.comp ((continuous_sumTo _ _ fun j =>
      (h2 j).mul continuous_const).add continuous_const)
  refine ⟨fun x => Real.sqrt (Da.meanTo s.nVisible fun i => (Da.normalise norm (f x) i -
    Da.visible env s (Da.hidden env s (Da.normalise norm (f x))) i) ^ 2), ?_, ?_⟩
  · exact Real.continuous_sqrt.comp (continuous_meanTo _ _ fun i => ((h1 i).sub (h3 i)).pow 2)
  · intro x
    simp only [Da.execute, hn, hsq]

/-- **C150 (KitNet).** Once the autoencoders are being trained, the score is a continuous function of
the instance. -/
theorem C150_kitnet {β : Type*} {n : ℕ} {env : KnEnv ℝ} (law : LinkageLaws env)
    (hsq : env.sqrt = Real.sqrt) (hsig : env.sigmoid = logistic) (hn : 2 ≤ n) (maxSize : ℤ)
    (fmo : Option ℕ) (ad : ℕ) (lr hr : ℝ) (hhr : 0 ≤ hr) (h : List (Call (Fin n → ℝ) β))
    (hlen : fmo.getD ad + 1 < (fitted h).length) (had : 0 < ad) :
    ∃ F : (Fin n → ℝ) → ℝ, Continuous F ∧ ∀ x, (KitNet.scorePartial env
      (calls (KitNet.detector env) (KitNet.new n maxSize fmo ad lr hr) h).2 x).out
        = .ok (.fin (F x)) := by
  set T := trainingInstances (fmo.getD ad) ad (fitted h) with hT
  have hne : T ≠ [] := by
    intro hc
    have := congrArg List.length hc
    simp [hT, trainingInstances] at this
    omega
  -- the feature map is the same for all instances
  obtain ⟨_, _, _, h2⟩ := kitnet_score_cluster law hn maxSize fmo ad lr hr hhr h (fun _ => 0)
  obtain ⟨v, hv, _, _⟩ := h2 (by omega)
  have hout : ∀ x, (KitNet.scorePartial env
      (calls (KitNet.detector env) (KitNet.new n maxSize fmo ad lr hr) h).2 x).out
        = .ok (kitnetScore env lr hr v T x) := by
    intro x
    obtain ⟨_, _, _, h3⟩ := kitnet_score_cluster law hn maxSize fmo ad lr hr hhr h x
    obtain ⟨v', hv', _, e⟩ := h3 (by omega)
    rw [hv] at hv'
    cases hv'
    exact e
  -- the errors
  have hex : ∀ idx, ∃ F : (Fin n → ℝ) → ℝ, Continuous F ∧
      ∀ x, Da.execute env (autoencoderAfter env lr hr T idx) (featuresOf x idx) = .fin (F x) := by
    intro idx
    refine da_execute_continuous env hsq hsig _
      (fun hc => hne ((autoencoderAfter_norm env lr hr T idx).1 hc)) (fun x => featuresOf x idx) ?_
    intro i
    unfold featuresOf
    split
    · exact continuous_apply _
    · exact continuous_const
  choose err hcont herr using hex
  obtain ⟨F, hF, hFx⟩ := da_execute_continuous env hsq hsig (outputAfter env lr hr v T)
    (fun hc => hne ((outputAfter_norm env lr hr v T).1 hc))
    (fun x : Fin n → ℝ => vectorOf (v.map fun idx => err idx x)) (by
      intro i
      unfold vectorOf
      simp only [List.length_map]
      split
      · simp only [List.getElem_map]
        exact hcont v[i]
      · exact continuous_const)
  refine ⟨F, hF, fun x => ?_⟩
  rw [hout, ← hFx]
  unfold kitnetScore
  dsimp only
  have herrors : v.map (fun idx => Da.execute env (autoencoderAfter env lr hr T idx) (featuresOf x idx))
      = v.map fun idx => .fin (err idx x) := List.map_congr_left fun idx _ => herr idx x
  have hfm : ∀ f : Num ℝ → Option ℝ, (∀ e, f (.fin e) = some e) →
      (v.map fun idx => (Num.fin (err idx x) : Num ℝ)).filterMap f = v.map fun idx => err idx x := by
    intro f hf
    rw [List.filterMap_map, ← List.filterMap_eq_map]
    congr 1
    funext idx
    exact hf _
  rw [herrors, if_neg (by simp), hfm _ fun _ => rfl]

/-! ### Inqmad -/

/-- **C150 (Inqmad).** In every state in which scoring does not raise, the score is a continuous
function of the instance, where the random features do not all vanish. -/
theorem C150_inqmad {n d : ℕ} (env : InqEnv ℝ n d) (hcos : env.cos = Real.cos)
    (hsq : env.sqrt = Real.sqrt) (s : InqState ℝ d) :
    (∃ e, ∀ x, (Inqmad.scorePartial env s x).out = .error e) ∨
    ∃ F : (Fin n → ℝ) → ℝ, ContinuousOn F {x | ∃ k, Inqmad.compute env x k ≠ 0} ∧
      ∀ x, (Inqmad.scorePartial env s x).out = .ok (F x) := by
  have hc : ∀ k, Continuous fun x => Inqmad.compute env x k := by
    intro k
    unfold Inqmad.compute
    rw [hcos]
    refine (Real.continuous_cos.comp (Continuous.add (continuous_finset_sum _ fun i _ =>
      (continuous_apply i).mul continuous_const) continuous_const)).mul continuous_const
  have hf : ∀ k, ContinuousOn (fun x => Inqmad.feature env x k)
      {x | ∃ k, Inqmad.compute env x k ≠ 0} := by
    intro k
    unfold Inqmad.feature
    rw [hsq]
    refine (hc k).continuousOn.div (Real.continuous_sqrt.comp (continuous_finset_sum _ fun j _ =>
      (hc j).pow 2)).continuousOn ?_
    rintro x ⟨j, hj⟩
    have : 0 < ∑ j, Inqmad.compute env x j ^ 2 :=
      Finset.sum_pos' (fun i _ => sq_nonneg _) ⟨j, Finset.mem_univ _, by positivity⟩
    exact (Real.sqrt_pos.2 this).ne'
  have hcol : ∀ rho : Fin d → Fin d → ℝ, ContinuousOn
      (fun x => Inqmad.collapse (Inqmad.feature env x) rho)
      {x | ∃ k, Inqmad.compute env x k ≠ 0} := by
    intro rho
    unfold Inqmad.collapse
    refine continuousOn_finset_sum _ fun j _ => ContinuousOn.pow ?_ 2
    exact continuousOn_finset_sum _ fun i _ => (hf i).mul continuousOn_const
  unfold Inqmad.scorePartial
  cases s.traced with
  | some rho => exact .inr ⟨_, hcol rho, fun _ => rfl⟩
  | none =>
    cases Inqmad.trace s with
    | error e => exact .inl ⟨e, fun _ => rfl⟩
    | ok rho => exact .inr ⟨_, hcol rho, fun _ => rfl⟩

/-! ### Detectors that count -/

/-- **C150 for HalfSpaceTrees, as one would expect it**: a sufficiently small change of an instance
changes its score by little. -/
def C150_hst_statement : Prop :=
  ∀ (randint : ℕ → ℕ → ℕ × ℕ), InRange randint → ∀ (lo hi : List ℚ) (w numTrees D g : ℕ)
    (s0 : HstState ℚ), Hst.new randint lo hi w numTrees D g = .ok s0 →
  ∀ (cs : List (Call (List ℚ) Unit)) (x : List ℚ) (ε : ℚ), 0 < ε → ∃ δ, 0 < δ ∧
    ∀ x' : List ℚ, x'.length = x.length → (∀ i, |feature x i - feature x' i| < δ) →
    ∀ r r', (Hst.scorePartial (calls (Hst.detector ℚ Unit) s0 cs).2 x).out = .ok r →
      (Hst.scorePartial (calls (Hst.detector ℚ Unit) s0 cs).2 x').out = .ok r' → |r - r'| < ε

/-- One split at 1, the value 1 fitted: 1 has the score -3, every greater value -1. -/
theorem C150_hst_refuted : ¬ C150_hst_statement := by
  intro h
  obtain ⟨δ, hδ, hc⟩ := h (fun g n => (g % n, g)) (fun g n hn => Nat.mod_lt _ hn) [0] [2] 2 1 1 0 _ rfl
    [.fit [1] none] [1] 1 one_pos
  have hs : (calls (Hst.detector ℚ Unit) (⟨2, 1, [.node (.node .nil .nil 0 0 0 0 1)
      (.node .nil .nil 0 0 0 0 1) 0 0 0 ((2 + 0) / 2) 0], true, 0⟩ : HstState ℚ) [.fit [1] none]).2 =
      ⟨2, 1, [.node (.node .nil .nil 1 1 0 0 1) (.node .nil .nil 0 0 0 0 1) 1 1 0 1 0], true, 1⟩ := by
    decide +kernel
  have h1 := hc [1 + δ / 2] rfl (by
    intro i
    cases i with
    | zero =>
      simp only [feature, List.getD_cons_zero]
      rw [show (1 : ℚ) - (1 + δ / 2) = -(δ / 2) by ring, abs_neg, abs_of_pos (by linarith)]
      linarith
    | succ i => simpa [feature] using hδ) (-3) (-1)
  erw [hs] at h1
  have h2 := h1 (by decide +kernel) (by
    have : (1 : ℚ) < 1 + δ / 2 := by linarith
    have h3 : (0 : ℚ) < 1 + δ / 2 := by linarith
    simp [Hst.scorePartial, Hst.scoreTree, this, h3, Except.map])
  norm_num at h2

theorem exists_gap {ι K : Type*} [Field K] [LinearOrder K] [IsStrictOrderedRing K] (f : ι → K)
    (l : List ι) (h : ∀ i ∈ l, 0 < f i) : ∃ δ, 0 < δ ∧ ∀ i ∈ l, δ ≤ f i := by
  induction l with
  | nil => exact ⟨1, one_pos, by simp⟩
  | cons i l ih =>
    obtain ⟨δ, h1, h2⟩ := ih fun j hj => h j (by simp [hj])
    refine ⟨min δ (f i), lt_min h1 (h i (by simp)), fun j hj => ?_⟩
    rcases List.mem_cons.1 hj with rfl | hj
    · exact min_le_right _ _
    · exact (min_le_left _ _).trans (h2 j hj)

/-- **C150 (partial).** What holds for HalfSpaceTrees: off the cuts of the grid a sufficiently small
change of an instance does not change its score at all. -/
theorem C150_hst_partial {G β K : Type*} [Field K] [LinearOrder K] [IsStrictOrderedRing K]
    (randint : G → ℕ → ℕ × G) (lo hi : List K) (w numTrees D : ℕ) (g : G) (s0 : HstState K)
    (h0 : Hst.new randint lo hi w numTrees D g = .ok s0) (x : List K)
    (hx : ∀ (j : ℕ) (a b v : K), lo[j]? = some a → hi[j]? = some b → x[j]? = some v →
      ∀ m : ℕ, 0 < m → m < 2 ^ D → v ≠ a + m * ((b - a) / 2 ^ D)) :
    ∃ δ, 0 < δ ∧ ∀ x' : List K, x'.length = x.length →
      (∀ i, |feature x i - feature x' i| < δ) → ∀ cs : List (Call (List K) β),
      (Hst.scorePartial (calls (Hst.detector K β) s0 cs).2 x).out =
        (Hst.scorePartial (calls (Hst.detector K β) s0 cs).2 x').out := by
  obtain ⟨δ, hδ, hmin⟩ := exists_gap (fun p : ℕ × ℕ =>
      match lo[p.1]?, hi[p.1]?, x[p.1]? with
      | some a, some b, some v => if 0 < p.2 ∧ p.2 < 2 ^ D
          then |v - (a + p.2 * ((b - a) / 2 ^ D))| else 1
      | _, _, _ => 1) ((List.range x.length).product (List.range (2 ^ D))) (by
    rintro ⟨j, m⟩ -
    dsimp only
    split
    · rename_i a b v ha hb hv
      split
      · rename_i hm
        exact abs_pos.2 (sub_ne_zero.2 (hx j a b v ha hb hv m hm.1 hm.2))
      · exact one_pos
    · exact one_pos)
  refine ⟨δ, hδ, fun x' hlen hnear cs => C151_hst_score randint lo hi w numTrees D g s0 h0 cs x x'
    ⟨hlen.symm, ?_⟩⟩
  intro j a b v v' ha hb hv hv' m h1 h2
  have hj : j < x.length := (List.getElem?_eq_some_iff.1 hv).1
  have hd := hmin (j, m) (List.mem_product.2 ⟨List.mem_range.2 hj, List.mem_range.2 h2⟩)
  simp only [ha, hb, hv, h1, h2, and_self, if_true] at hd
  have hn := hnear j
  simp only [feature, List.getD_eq_getElem?_getD, hv, hv', Option.getD_some] at hn
  generalize a + (m : K) * ((b - a) / 2 ^ D) = c at hd ⊢
  rw [abs_lt] at hn
  rcases abs_cases (v - c) with ⟨e, _⟩ | ⟨e, _⟩ <;> rw [e] at hd <;> constructor <;> intro h <;>
    linarith [hn.1, hn.2]

/-- **C150 for ExactStorm, as one would expect it.** -/
def C150_storm_statement : Prop :=
  ∀ (w : ℕ) (r : ℚ) (cs : List (Call ℚ Unit)) (x ε : ℚ), 0 < ε → ∃ δ, 0 < δ ∧
    ∀ x', |x - x'| < δ → ∀ a a',
    ((exactStorm (β := Unit) fun u v : ℚ => |u - v|).scorePartial
      (calls (exactStorm fun u v : ℚ => |u - v|) (StormState.new w r) cs).2 x).out = .ok a →
    ((exactStorm (β := Unit) fun u v : ℚ => |u - v|).scorePartial
      (calls (exactStorm fun u v : ℚ => |u - v|) (StormState.new w r) cs).2 x').out = .ok a' →
    |a - a'| < ε

/-- Two zeros fitted, radius 1: the instance 1 has the score 0, every smaller one the score 1. -/
theorem C150_storm_refuted : ¬ C150_storm_statement := by
  intro h
  obtain ⟨δ, hδ, hc⟩ := h 2 1 [.fit 0 none, .fit 0 none] 1 1 one_pos
  set δ' := min δ 1 with hδ'
  have h0 : 0 < δ' := lt_min hδ one_pos
  have h1 : δ' ≤ δ := min_le_left _ _
  have h2 : δ' ≤ 1 := min_le_right _ _
  have := hc (1 - δ' / 2) (by
    rw [show (1 : ℚ) - (1 - δ' / 2) = δ' / 2 by ring, abs_of_pos (by linarith)]
    linarith) 0 1 (by rw [C50_storm_score]; decide +kernel) (by
    rw [C50_storm_score]
    have hl : (lastN 2 (fitted [(.fit 0 none : Call ℚ Unit), .fit 0 none])).dropLast = [0] := by
      decide +kernel
    have hlt : |(0 : ℚ) - (1 - δ' / 2)| < 1 := by
      rw [zero_sub, abs_neg, abs_of_pos (by linarith)]; linarith
    rw [hl]
    simp only [nearFraction, List.countP_cons, List.countP_nil, hlt, decide_true]
    norm_num)
  norm_num at this

/-- **C150 (partial).** What holds for ExactStorm: a change by less than `δ` changes the score by at
most the fraction of the older instances whose distance is within `δ` of the radius. -/
theorem C150_storm_partial {α β K : Type*} [Field K] [LinearOrder K] [IsStrictOrderedRing K]
    (dist : α → α → K) (w : ℕ) (r δ : K) (cs : List (Call α β)) (x x' : α)
    (hd : ∀ u, |dist u x - dist u x'| < δ) :
    let older := (lastN w (fitted cs)).dropLast
    ∃ a a', ((exactStorm (β := β) dist).scorePartial
        (calls (exactStorm (β := β) dist) (StormState.new w r) cs).2 x).out = .ok a ∧
      ((exactStorm (β := β) dist).scorePartial
        (calls (exactStorm (β := β) dist) (StormState.new w r) cs).2 x').out = .ok a' ∧
      |a - a'| * older.length ≤ (older.countP fun u => |dist u x - r| < δ : ℕ) := by
  intro older
  rw [C50_storm_score, C50_storm_score]
  refine ⟨_, _, rfl, rfl, ?_⟩
  change |nearFraction dist r older x - nearFraction dist r older x'| * _ ≤ _
  generalize older = l
  unfold nearFraction
  by_cases hl : l = []
  · simp [hl]
  rw [if_neg hl, if_neg hl]
  have hpos : (0 : K) < l.length := by exact_mod_cast List.length_pos_iff.2 hl
  rw [← sub_div, abs_div, abs_of_pos hpos, div_mul_cancel₀ _ hpos.ne']
  clear hl hpos
  induction l with
  | nil => simp
  | cons u l ih =>
    rw [List.countP_cons, List.countP_cons, List.countP_cons]
    have hu := abs_lt.1 (hd u)
    by_cases h1 : dist u x < r
    · by_cases h2 : dist u x' < r
      · simp only [h1, h2, decide_true, if_true]
        push_cast
        have e : ((l.countP fun w => decide (dist w x < r) : ℕ) : K) + 1 -
          (((l.countP fun w => decide (dist w x' < r) : ℕ) : K) + 1) = 
          ((l.countP fun w => decide (dist w x < r) : ℕ) : K) -
          ((l.countP fun w => decide (dist w x' < r) : ℕ) : K) := by ring
        rw [e]
        split_ifs <;> simp <;> linarith
      · have h3 : |dist u x - r| < δ := by
          rw [abs_lt]; constructor <;> linarith [not_lt.1 h2]
        simp only [h1, h2, h3, decide_true, decide_false, if_true]
        push_cast
        simp only [Bool.false_eq_true, if_false, Nat.cast_zero, add_zero]
        rw [abs_le] at ih ⊢
        constructor <;> linarith [ih.1, ih.2]
    · by_cases h2 : dist u x' < r
      · have h3 : |dist u x - r| < δ := by
          rw [abs_lt]; constructor <;> linarith [not_lt.1 h1]
        simp only [h1, h2, h3, decide_true, decide_false, if_true]
        push_cast
        simp only [Bool.false_eq_true, if_false, Nat.cast_zero, add_zero]
        rw [abs_le] at ih ⊢
        constructor <;> linarith [ih.1, ih.2]
      · simp only [h1, h2, decide_false, Bool.false_eq_true, if_false, add_zero]
        split_ifs
        · push_cast; linarith
        · simpa using ih

/-- The hypotheses of C150 are met: deviation detectors after two fits. -/
example : ∃ scale : ℚ, 1 / 10 ^ 10 ≤ scale ∧ ∀ x y, ∃ r r',
    ((medianAbsoluteDeviation (β := Unit)).scorePartial (calls (medianAbsoluteDeviation (β := Unit))
      (MadState.new true (7413 / 5000)) [.fit [1] none, .fit [3] none]).2 [x]).out = .ok [.fin r] ∧
    ((medianAbsoluteDeviation (β := Unit)).scorePartial (calls (medianAbsoluteDeviation (β := Unit))
      (MadState.new true (7413 / 5000)) [.fit [1] none, .fit [3] none]).2 [y]).out = .ok [.fin r'] ∧
    |r - r'| ≤ |x - y| / scale :=
  C150_mad _ (by norm_num) true _ (by decide +kernel)

/-- `KitNet` after its grace period. -/
example : ∃ F : (Fin 2 → ℝ) → ℝ, Continuous F ∧ ∀ x,
    (KitNet.scorePartial kitnetRealEnv (calls (KitNet.detector kitnetRealEnv)
      (KitNet.new 2 10 (some 0) 5 (1 / 10) (3 / 4))
      [(.fit (fun _ => 0) none : Call (Fin 2 → ℝ) Unit), .fit (fun _ => 1) none]).2 x).out
        = .ok (.fin (F x)) :=
  C150_kitnet (chainLinkage_laws kitnetRealEnv rfl) rfl rfl le_rfl 10 (some 0) 5 (1 / 10) (3 / 4)
    (by norm_num) _ (by simp [fitted]) (by norm_num)

/-- `HalfSpaceTrees` away from the only cut. -/
example : ∃ s0, Hst.new (fun (g n : ℕ) => (g % n, g)) [0] [(2 : ℚ)] 2 1 1 0 = .ok s0 ∧
    ∃ δ, 0 < δ ∧ ∀ x' : List ℚ, x'.length = 1 → (∀ i, |feature [3 / 2] i - feature x' i| < δ) →
      ∀ cs : List (Call (List ℚ) Unit),
      (Hst.scorePartial (calls (Hst.detector ℚ Unit) s0 cs).2 [3 / 2]).out =
        (Hst.scorePartial (calls (Hst.detector ℚ Unit) s0 cs).2 x').out := by
  refine ⟨_, rfl, C150_hst_partial (fun (g n : ℕ) => (g % n, g)) [0] [2] 2 1 1 0 _ rfl [3 / 2] ?_⟩
  intro j a b v ha hb hv m h1 h2
  cases j with
  | succ j => simp at ha
  | zero =>
    simp only [List.getElem?_cons_zero, Option.some.injEq] at ha hb hv
    subst ha hb hv
    obtain rfl : m = 1 := by omega
    norm_num

end Pysad
