import Verif.Model.Inqmad
import Verif.Proofs.Calls
import Mathlib.Algebra.Order.BigOperators.Ring.Finset
import Mathlib.Analysis.SpecialFunctions.Trigonometric.Basic
import Mathlib.Analysis.SpecialFunctions.Sqrt
import Mathlib.Tactic.FieldSimp
import Mathlib.Algebra.BigOperators.Field

/-! Properties C85, C88, C89: `Inqmad`. -/

namespace Pysad

open Spec

section
variable {K β : Type*} [Field K] {n d : ℕ}

/-- The projector on the feature vector of `z`. -/
def Spec.projector (env : InqEnv K n d) (z : Fin n → K) : Fin d → Fin d → K :=
  fun i j => Inqmad.feature env z i * Inqmad.feature env z j

/-- The measurement of `x` against a density matrix: the squared length of `psi(x) * rho`. -/
def Spec.inqMeasure (env : InqEnv K n d) (rho : Fin d → Fin d → K) (x : Fin n → K) : K :=
  ∑ j, (∑ i, Inqmad.feature env x i * rho i j) ^ 2

/-- The measurement against the density of the last of the instances `zs`, divided by their
number. -/
def Spec.lastMeasure (env : InqEnv K n d) (zs : List (Fin n → K)) (z x : Fin n → K) : K :=
  inqMeasure env (fun i j => projector env z i j / (zs.length : K)) x

/-- The instances fitted before the first score that comes after a fit, or all if there is none;
`acc` are those fitted so far. -/
def Spec.fittedAtFirstScore {α : Type*} (acc : List α) : List (Call α β) → List α
  | [] => acc
  | .fit x _ :: cs => fittedAtFirstScore (acc ++ [x]) cs
  | .score _ :: cs => if acc.isEmpty then fittedAtFirstScore acc cs else acc

theorem computeTraining_one (env : InqEnv K n d) (x : Fin n → K)
    (rho : Option (Fin d → Fin d → K)) :
    Inqmad.computeTraining env x 1 rho = projector env x := by
  unfold Inqmad.computeTraining
  cases rho with
  | none => rfl
  | some rho => funext i j; simp [projector, Inqmad.trainPure]

theorem inqmad_traced (env : InqEnv K n d) (h : List (Call (Fin n → K) β)) :
    ∀ (s : InqState K d) (rho : Fin d → Fin d → K), s.traced = some rho →
      (calls (Inqmad.detector env) s h).2.traced = some rho := by
  induction h with
  | nil => intro s rho hs; exact hs
  | cons c h ih =>
    intro s rho hs
    rw [calls]
    apply ih
    cases c with
    | fit x y =>
      simp only [call, Inqmad.detector, Inqmad.fitPartial]
      by_cases h0 : s.batchSize = 0
      · rw [if_pos h0]; exact hs
      · rw [if_neg h0]; exact hs
    | score x =>
      simp only [call, Inqmad.detector, Inqmad.scorePartial, hs]

/-- What the object is after fitting `acc` without having scored since. -/
theorem inqmad_calls (env : InqEnv K n d) (h : List (Call (Fin n → K) β)) :
    ∀ (acc : List (Fin n → K)) (s : InqState K d), s.batchSize ≠ 0 → s.traced = none →
      s.numSamples = acc.length → s.rho = acc.getLast?.map (projector env) →
      (calls (Inqmad.detector env) s h).2.batchSize ≠ 0 ∧
      (((calls (Inqmad.detector env) s h).2.traced = none ∧
          (calls (Inqmad.detector env) s h).2.numSamples = (fittedAtFirstScore acc h).length ∧
          (calls (Inqmad.detector env) s h).2.rho
            = (fittedAtFirstScore acc h).getLast?.map (projector env)) ∨
        ∃ z, (fittedAtFirstScore acc h).getLast? = some z ∧
          (calls (Inqmad.detector env) s h).2.traced = some (fun i j =>
            projector env z i j / ((fittedAtFirstScore acc h).length : K))) := by
  induction h with
  | nil => intro acc s h0 h1 h2 h3; exact ⟨h0, Or.inl ⟨h1, h2, h3⟩⟩
  | cons c h ih =>
    intro acc s h0 h1 h2 h3
    rw [calls]
    cases c with
    | fit x y =>
      have hc : (call (Inqmad.detector env) s (Call.fit x y)).2 = { s with
          rho := some (projector env x), numSamples := s.numSamples + 1 } := by
        simp only [call, Inqmad.detector, Inqmad.fitPartial]
        rw [if_neg h0]
        simp only [computeTraining_one]
      simp only [fittedAtFirstScore]
      rw [hc]
      exact ih (acc ++ [x]) _ h0 h1 (by simp [h2]) (by simp)
    | score x =>
      simp only [fittedAtFirstScore]
      by_cases hacc : acc = []
      · subst hacc
        have hr : s.rho = none := by simpa using h3
        have hc : (call (Inqmad.detector env) s (Call.score x : Call (Fin n → K) β)).2 = s := by
          simp only [call, Inqmad.detector, Inqmad.scorePartial, h1, Inqmad.trace, if_neg h0, hr]
        rw [hc]
        simpa using ih [] s h0 h1 h2 h3
      · obtain ⟨z, hz⟩ : ∃ z, acc.getLast? = some z :=
          ⟨acc.getLast hacc, List.getLast?_eq_some_getLast hacc⟩
        have hr : s.rho = some (projector env z) := by rw [h3, hz]; rfl
        have hc : (call (Inqmad.detector env) s (Call.score x : Call (Fin n → K) β)).2
            = { s with traced := some fun i j => projector env z i j / (acc.length : K) } := by
          simp only [call, Inqmad.detector, Inqmad.scorePartial, h1, Inqmad.trace, if_neg h0, hr,
            h2]
        rw [hc]
        have hb : ∀ (h : List (Call (Fin n → K) β)) (s : InqState K d), s.batchSize ≠ 0 →
            (calls (Inqmad.detector env) s h).2.batchSize ≠ 0 := by
          intro h
          induction h with
          | nil => intro s hs; exact hs
          | cons c h ih =>
            intro s hs
            rw [calls]
            apply ih
            cases c with
            | fit x y =>
              simp only [call, Inqmad.detector, Inqmad.fitPartial]
              rw [if_neg hs]; exact hs
            | score x =>
              simp only [call, Inqmad.detector, Inqmad.scorePartial]
              cases s.traced with
              | some _ => exact hs
              | none =>
                simp only
                cases Inqmad.trace s with
                | error e => exact hs
                | ok r => exact hs
        refine ⟨hb h _ h0, Or.inr ⟨z, ?_, ?_⟩⟩
        · simp [hacc, hz]
        · rw [inqmad_traced env h _ _ rfl]
          simp [hacc]

/-- **C85 and C88, what happens instead.** In every history: scores are measurements against the
last instance fitted before the first score after a fit (divided by the number of instances
fitted by then), however much is fitted later. Without any such instance `AttributeError`. -/
theorem C85_inqmad_scores_partial (env : InqEnv K n d) (b : ℕ) (hb : b ≠ 0)
    (h : List (Call (Fin n → K) β)) (x : Fin n → K) :
    (Inqmad.scorePartial env (calls (Inqmad.detector env) (Inqmad.new b) h).2 x).out =
      match (fittedAtFirstScore [] h).getLast? with
      | none => .error .attributeError
      | some z => .ok (lastMeasure env (fittedAtFirstScore [] h) z x) := by
  obtain ⟨h0, hor⟩ := inqmad_calls env h [] (Inqmad.new b) hb rfl rfl rfl
  generalize (calls (Inqmad.detector env) (Inqmad.new b) h).2 = s at h0 hor
  unfold Inqmad.scorePartial
  rcases hor with ⟨h1, h2, h3⟩ | ⟨z, hz, h1⟩
  · rw [h1]
    simp only [Inqmad.trace]
    rw [if_neg h0, h3]
    cases hz : (fittedAtFirstScore [] h).getLast? with
    | none => rfl
    | some z => simp only [Option.map_some, Res.out_ok, h2]; rfl
  · rw [h1, hz]
    rfl

theorem fittedAtFirstScore_fits {α : Type*} (h : List (Call α β))
    (hs : ∀ c ∈ h, c.isScore = false) : ∀ acc, fittedAtFirstScore acc h = acc ++ fitted h := by
  induction h with
  | nil => intro acc; simp [fittedAtFirstScore, fitted]
  | cons c h ih =>
    intro acc
    cases c with
    | fit x y =>
      rw [fittedAtFirstScore, ih fun c hc => hs c (by simp [hc])]
      simp [fitted]
    | score x => have := hs (.score x) (by simp); cases this

/-- **C85, partial.** Missing: histories in which something was scored before. Then the score
does reflect the instance just fitted. -/
theorem C85_inqmad_fresh_partial (env : InqEnv K n d) (b : ℕ) (hb : b ≠ 0)
    (h : List (Call (Fin n → K) β)) (hs : ∀ c ∈ h, c.isScore = false) (z x : Fin n → K)
    (y : Option β) :
    (Inqmad.scorePartial env
      (calls (Inqmad.detector env) (Inqmad.new b) (h ++ [.fit z y])).2 x).out
      = .ok (lastMeasure env (fitted (h ++ [.fit z y])) z x) := by
  rw [C85_inqmad_scores_partial env b hb, fittedAtFirstScore_fits _ (by
    intro c hc
    rcases List.mem_append.1 hc with hc | hc
    · exact hs c hc
    · rw [List.mem_singleton] at hc; subst hc; rfl)]
  simp [fitted_append, fitted]

end

/-! ### Over the reals -/

/-- `cos` and the square root of the reals, with any weights and offsets. -/
noncomputable def Spec.realInqEnv {n d : ℕ} (weights : Fin n → Fin d → ℝ) (offset : Fin d → ℝ) :
    InqEnv ℝ n d :=
  ⟨Real.cos, Real.sqrt, weights, offset⟩

/-- **C85, the full statement**: after `fit_partial(z)` in any history, scores are measured
against the density of `z`. -/
def C85_statement : Prop :=
  ∀ (n d b : ℕ) (weights : Fin n → Fin d → ℝ) (offset : Fin d → ℝ), b ≠ 0 →
    ∀ (h : List (Call (Fin n → ℝ) Unit)) (z x : Fin n → ℝ),
      let env := realInqEnv weights offset
      (Inqmad.scorePartial env
        (calls (Inqmad.detector env) (Inqmad.new b) (h ++ [.fit z none])).2 x).out
        = .ok (lastMeasure env (fitted (h ++ [.fit z none])) z x)

/-- **C88, the full statement**: scores without earlier scores are measured against the average
of the projectors of all instances fitted. -/
def C88_statement : Prop :=
  ∀ (n d b : ℕ) (weights : Fin n → Fin d → ℝ) (offset : Fin d → ℝ), b ≠ 0 →
    ∀ (h : List (Call (Fin n → ℝ) Unit)) (x : Fin n → ℝ), (∀ c ∈ h, c.isScore = false) →
      fitted h ≠ [] →
      let env := realInqEnv weights offset
      (Inqmad.scorePartial env (calls (Inqmad.detector env) (Inqmad.new b) h).2 x).out
        = .ok (inqMeasure env (fun i j => ((fitted h).map fun z => projector env z i j).sum
            / ((fitted h).length : ℝ)) x)

/-- **C89, the full statement**: with one instance fitted, no other instance gets a lower score
than it (higher scores are to mean more anomalous). -/
def C89_statement : Prop :=
  ∀ (n d b : ℕ) (weights : Fin n → Fin d → ℝ) (offset : Fin d → ℝ), b ≠ 0 →
    ∀ (z x : Fin n → ℝ) (a c : ℝ),
      let env := realInqEnv weights offset
      let s := (calls (Inqmad.detector env) (Inqmad.new b)
        [(.fit z none : Call (Fin n → ℝ) Unit)]).2
      (Inqmad.scorePartial env s z).out = .ok a → (Inqmad.scorePartial env s x).out = .ok c →
        a ≤ c

/-- Two features: `cos x` and `cos (x + pi/2)`. -/
noncomputable def inqExample : InqEnv ℝ 1 2 :=
  realInqEnv (fun _ _ => 1) fun k => if k = 0 then 0 else Real.pi / 2

theorem inqExample_compute (t : ℝ) (k : Fin 2) : Inqmad.compute inqExample (fun _ => t) k =
    if k = 0 then Real.cos t else -Real.sin t := by
  unfold Inqmad.compute inqExample realInqEnv
  have h2 : Real.sqrt 2 / Real.sqrt ((2 : ℕ) : ℝ) = 1 := by
    rw [Nat.cast_ofNat]; exact div_self (by positivity)
  simp only [h2, mul_one, Finset.univ_unique, Finset.sum_const, Finset.card_singleton, one_smul]
  split
  · simp
  · rw [Real.cos_add_pi_div_two]

theorem inqExample_feature (t : ℝ) (k : Fin 2) : Inqmad.feature inqExample (fun _ => t) k =
    if k = 0 then Real.cos t else -Real.sin t := by
  unfold Inqmad.feature
  rw [Fin.sum_univ_two, inqExample_compute, inqExample_compute, inqExample_compute]
  simp [inqExample, realInqEnv]

theorem inqExample_measure (rho : Fin 2 → Fin 2 → ℝ) (t : ℝ) :
    inqMeasure inqExample rho (fun _ => t) =
      (Real.cos t * rho 0 0 - Real.sin t * rho 1 0) ^ 2 +
      (Real.cos t * rho 0 1 - Real.sin t * rho 1 1) ^ 2 := by
  unfold inqMeasure
  simp only [Fin.sum_univ_two, inqExample_feature]
  simp
  ring

/-- **C85 is false**: fit 0, score, fit pi/2, score 0: still 1, instead of 0. -/
theorem C85_inqmad_refuted : ¬ C85_statement := by
  intro hst
  have h1 := hst 1 2 300 (fun _ _ => 1) (fun k => if k = 0 then 0 else Real.pi / 2) (by norm_num)
    [.fit (fun _ => 0) none, .score (fun _ => 0)] (fun _ => Real.pi / 2) (fun _ => 0)
  have h2 := C85_inqmad_scores_partial (β := Unit) inqExample 300 (by norm_num)
    [.fit (fun _ => 0) none, .score (fun _ => 0), .fit (fun _ => Real.pi / 2) none] (fun _ => 0)
  simp only at h1
  change (Inqmad.scorePartial inqExample (calls (Inqmad.detector inqExample) (Inqmad.new 300)
    [.fit (fun _ => 0) none, .score (fun _ => 0), .fit (fun _ => Real.pi / 2) none]).2
      (fun _ => 0)).out = .ok (lastMeasure inqExample _ _ _) at h1
  rw [h1] at h2
  simp only [fittedAtFirstScore, List.nil_append, List.isEmpty_cons, Bool.false_eq_true, if_false,
    List.getLast?_singleton, Except.ok.injEq, lastMeasure, inqExample_measure, projector,
    inqExample_feature, fitted, List.cons_append, List.length_cons, List.length_nil] at h2
  simp at h2

/-- **C88 is false**: fit 0, fit pi/2, score 0: 0 instead of 1/4. -/
theorem C88_inqmad_refuted : ¬ C88_statement := by
  intro hst
  have h1 := hst 1 2 300 (fun _ _ => 1) (fun k => if k = 0 then 0 else Real.pi / 2) (by norm_num)
    [.fit (fun _ => 0) none, .fit (fun _ => Real.pi / 2) none] (fun _ => 0)
    (by intro c hc; simp at hc; rcases hc with rfl | rfl <;> rfl) (by simp [fitted])
  have h2 := C85_inqmad_scores_partial (β := Unit) inqExample 300 (by norm_num)
    [.fit (fun _ => 0) none, .fit (fun _ => Real.pi / 2) none] (fun _ => 0)
  simp only at h1
  change (Inqmad.scorePartial inqExample (calls (Inqmad.detector inqExample) (Inqmad.new 300)
    [.fit (fun _ => 0) none, .fit (fun _ => Real.pi / 2) none]).2
      (fun _ => 0)).out = .ok (inqMeasure inqExample _ _) at h1
  rw [h1] at h2
  simp only [fittedAtFirstScore, List.nil_append, List.cons_append,
    List.getLast?_cons_cons, List.getLast?_singleton, Except.ok.injEq, lastMeasure,
    inqExample_measure, projector, inqExample_feature, fitted, List.length_cons,
    List.length_nil, List.map_cons, List.map_nil, List.sum_cons, List.sum_nil] at h2
  have f : ∀ (t : ℝ) k, Inqmad.feature (realInqEnv (fun _ _ => 1)
      fun k => if k = 0 then 0 else Real.pi / 2) (fun _ : Fin 1 => t) k
      = if k = 0 then Real.cos t else -Real.sin t := inqExample_feature
  simp [f 0, f (Real.pi / 2)] at h2

/-- Feature vectors have length 1, unless all cosines vanish. -/
theorem feature_unit {n d : ℕ} (weights : Fin n → Fin d → ℝ) (offset : Fin d → ℝ)
    (x : Fin n → ℝ) (hx : ∃ k, Inqmad.compute (realInqEnv weights offset) x k ≠ 0) :
    ∑ k, Inqmad.feature (realInqEnv weights offset) x k ^ 2 = 1 := by
  unfold Inqmad.feature
  have hpos : 0 < ∑ k, Inqmad.compute (realInqEnv weights offset) x k ^ 2 := by
    obtain ⟨k, hk⟩ := hx
    exact Finset.sum_pos' (fun i _ => sq_nonneg _) ⟨k, Finset.mem_univ k, by positivity⟩
  simp only [div_pow]
  rw [← Finset.sum_div]
  have : (realInqEnv weights offset).sqrt
      (∑ k, Inqmad.compute (realInqEnv weights offset) x k ^ 2) ^ 2
      = ∑ k, Inqmad.compute (realInqEnv weights offset) x k ^ 2 := Real.sq_sqrt hpos.le
  rw [this, div_self hpos.ne']

/-- **C88 and C89, what happens instead.** The score (C85) is the squared cosine of the angle
between the feature vectors of `x` and of one instance `z`, divided by the squared number of
instances: greatest for `x = z`. Assumes feature vectors that do not vanish. -/
theorem C89_inqmad_direction_partial {n d : ℕ} (weights : Fin n → Fin d → ℝ)
    (offset : Fin d → ℝ) (zs : List (Fin n → ℝ)) (z x : Fin n → ℝ)
    (hz : ∃ k, Inqmad.compute (realInqEnv weights offset) z k ≠ 0)
    (hx : ∃ k, Inqmad.compute (realInqEnv weights offset) x k ≠ 0) :
    let env := realInqEnv weights offset
    lastMeasure env zs z x
      = (∑ k, Inqmad.feature env x k * Inqmad.feature env z k) ^ 2 / (zs.length : ℝ) ^ 2 ∧
    0 ≤ lastMeasure env zs z x ∧ lastMeasure env zs z x ≤ lastMeasure env zs z z := by
  intro env
  have hu := feature_unit weights offset z hz
  have hux := feature_unit weights offset x hx
  have key : ∀ y : Fin n → ℝ, lastMeasure env zs z y
      = (∑ k, Inqmad.feature env y k * Inqmad.feature env z k) ^ 2 / (zs.length : ℝ) ^ 2 := by
    intro y
    unfold lastMeasure inqMeasure projector
    have : ∀ j, ∑ i, Inqmad.feature env y i *
        (Inqmad.feature env z i * Inqmad.feature env z j / (zs.length : ℝ))
        = (∑ k, Inqmad.feature env y k * Inqmad.feature env z k)
          * Inqmad.feature env z j / (zs.length : ℝ) := by
      intro j
      rw [Finset.sum_mul, Finset.sum_div]
      apply Finset.sum_congr rfl
      intro i _
      ring
    simp only [this, div_pow, mul_pow]
    rw [← Finset.sum_div, ← Finset.mul_sum, hu, mul_one]
  refine ⟨key x, ?_, ?_⟩
  · rw [key x]; positivity
  · rw [key x, key z]
    apply div_le_div_of_nonneg_right _ (by positivity)
    have hzz : ∑ k, Inqmad.feature env z k * Inqmad.feature env z k = 1 := by
      rw [← hu]; exact Finset.sum_congr rfl fun k _ => (sq _).symm
    rw [hzz, one_pow]
    calc (∑ k, Inqmad.feature env x k * Inqmad.feature env z k) ^ 2
        ≤ (∑ k, Inqmad.feature env x k ^ 2) * ∑ k, Inqmad.feature env z k ^ 2 :=
          Finset.sum_mul_sq_le_sq_mul_sq _ _ _
      _ = 1 := by rw [hu, hux, one_mul]

/-- The random features of an instance: the cosines of random projections. -/
noncomputable def Spec.randomFeatures {n d : ℕ} (weights : Fin n → Fin d → ℝ) (offset : Fin d → ℝ)
    (x : Fin n → ℝ) (k : Fin d) : ℝ :=
  Real.cos ((∑ i, x i * weights i k) + offset k)

/-- The square of the cosine of the angle between two vectors. -/
noncomputable def Spec.squaredCosine {d : ℕ} (u v : Fin d → ℝ) : ℝ :=
  (∑ k, u k * v k) ^ 2 / ((∑ k, u k ^ 2) * ∑ k, v k ^ 2)

theorem squaredCosine_self {d : ℕ} {u : Fin d → ℝ} (hu : 0 < ∑ k, u k ^ 2) :
    squaredCosine u u = 1 := by
  unfold squaredCosine
  rw [Finset.sum_congr rfl fun k _ => (sq (u k)).symm, ← pow_two, div_self (pow_pos hu 2).ne']

theorem squaredCosine_le_one {d : ℕ} {u v : Fin d → ℝ} (hu : 0 < ∑ k, u k ^ 2)
    (hv : 0 < ∑ k, v k ^ 2) : squaredCosine u v ≤ 1 := by
  unfold squaredCosine
  rw [div_le_one (mul_pos hu hv)]
  exact Finset.sum_mul_sq_le_sq_mul_sq _ _ _

theorem squaredCosine_nonneg {d : ℕ} (u v : Fin d → ℝ) : 0 ≤ squaredCosine u v :=
  div_nonneg (sq_nonneg _) (mul_nonneg (Finset.sum_nonneg fun _ _ => sq_nonneg _)
    (Finset.sum_nonneg fun _ _ => sq_nonneg _))

/-- **C89, every score.** In every history, with `z` the last of the `N` instances that were
fitted before the first score after a fit: the score of `x` is the squared cosine of the angle
between the random features of `x` and of `z`, divided by `N²`; so `z` itself has the greatest of
all scores, `1 / N²`. Assumes random features that do not all vanish. -/
theorem C89_inqmad_scores_partial {β : Type*} {n d : ℕ} (weights : Fin n → Fin d → ℝ)
    (offset : Fin d → ℝ) (b : ℕ) (hb : b ≠ 0) (h : List (Call (Fin n → ℝ) β)) (z : Fin n → ℝ)
    (hz : (fittedAtFirstScore [] h).getLast? = some z)
    (hz0 : ∃ k, randomFeatures weights offset z k ≠ 0) :
    let env := realInqEnv weights offset
    let s := (calls (Inqmad.detector env) (Inqmad.new b) h).2
    let N := (fittedAtFirstScore [] h).length
    (Inqmad.scorePartial env s z).out = .ok (1 / (N : ℝ) ^ 2) ∧
    ∀ x, (∃ k, randomFeatures weights offset x k ≠ 0) → ∃ r,
      (Inqmad.scorePartial env s x).out = .ok r ∧
      r = squaredCosine (randomFeatures weights offset x) (randomFeatures weights offset z)
        / (N : ℝ) ^ 2 ∧ 0 ≤ r ∧ r ≤ 1 / (N : ℝ) ^ 2 := by
  intro env s N
  obtain ⟨k0, hk0⟩ := hz0
  have hd : (0 : ℝ) < d := by
    have := k0.pos
    exact_mod_cast this
  set c : ℝ := Real.sqrt 2 / Real.sqrt d with hc
  have hc0 : 0 < c := div_pos (Real.sqrt_pos.2 (by norm_num)) (Real.sqrt_pos.2 hd)
  have hcomp : ∀ x k, Inqmad.compute env x k = randomFeatures weights offset x k * c :=
    fun x k => rfl
  have hfeat : ∀ x k, Inqmad.feature env x k = randomFeatures weights offset x k
      / Real.sqrt (∑ j, randomFeatures weights offset x j ^ 2) := by
    intro x k
    unfold Inqmad.feature
    simp only [hcomp]
    have e : ∑ j, (randomFeatures weights offset x j * c) ^ 2
        = c ^ 2 * ∑ j, randomFeatures weights offset x j ^ 2 := by
      rw [Finset.mul_sum]; exact Finset.sum_congr rfl fun j _ => by ring
    show _ / Real.sqrt _ = _
    rw [e, Real.sqrt_mul (sq_nonneg _), Real.sqrt_sq hc0.le, mul_comm c,
      mul_div_mul_right _ _ hc0.ne']
  have hne : ∀ x, (∃ k, randomFeatures weights offset x k ≠ 0) →
      ∃ k, Inqmad.compute env x k ≠ 0 := by
    rintro x ⟨k, hk⟩
    refine ⟨k, ?_⟩
    rw [hcomp]
    exact mul_ne_zero hk hc0.ne'
  have hpos : ∀ x, (∃ k, randomFeatures weights offset x k ≠ 0) →
      0 < ∑ j, randomFeatures weights offset x j ^ 2 := by
    rintro x ⟨k, hk⟩
    exact Finset.sum_pos' (fun j _ => sq_nonneg _) ⟨k, Finset.mem_univ _, by positivity⟩
  have hout : ∀ x, (Inqmad.scorePartial env s x).out
      = .ok (lastMeasure env (fittedAtFirstScore [] h) z x) := by
    intro x
    rw [C85_inqmad_scores_partial env b hb h x, hz]
  have hval : ∀ x, (∃ k, randomFeatures weights offset x k ≠ 0) →
      lastMeasure env (fittedAtFirstScore [] h) z x
        = squaredCosine (randomFeatures weights offset x) (randomFeatures weights offset z)
          / (N : ℝ) ^ 2 := by
    intro x hx
    rw [(C89_inqmad_direction_partial weights offset (fittedAtFirstScore [] h) z x
      (hne z ⟨k0, hk0⟩) (hne x hx)).1]
    congr 1
    unfold squaredCosine
    have hX := hpos x hx
    have hZ := hpos z ⟨k0, hk0⟩
    have e : ∑ k, Inqmad.feature env x k * Inqmad.feature env z k
        = (∑ k, randomFeatures weights offset x k * randomFeatures weights offset z k)
          / (Real.sqrt (∑ j, randomFeatures weights offset x j ^ 2)
            * Real.sqrt (∑ j, randomFeatures weights offset z j ^ 2)) := by
      rw [Finset.sum_div]
      refine Finset.sum_congr rfl fun k _ => ?_
      rw [hfeat, hfeat, div_mul_div_comm]
    show (∑ k, Inqmad.feature env x k * Inqmad.feature env z k) ^ 2 = _
    rw [e, div_pow, mul_pow, Real.sq_sqrt hX.le, Real.sq_sqrt hZ.le]
  refine ⟨by rw [hout, hval z ⟨k0, hk0⟩, squaredCosine_self (hpos z ⟨k0, hk0⟩)], fun x hx =>
    ⟨_, hout x, hval x hx, ?_, ?_⟩⟩
  · rw [hval x hx]
    exact div_nonneg (squaredCosine_nonneg _ _) (sq_nonneg _)
  · rw [hval x hx]
    exact div_le_div_of_nonneg_right (squaredCosine_le_one (hpos x hx) (hpos z ⟨k0, hk0⟩))
      (sq_nonneg _)

/-- **C88, what happens instead.** Without earlier scores only the last instance counts: two
histories of fits with the same number of fits and the same last one give the same scores. -/
theorem C88_inqmad_last_partial {K β : Type*} [Field K] {n d : ℕ} (env : InqEnv K n d) (b : ℕ)
    (hb : b ≠ 0) (h h' : List (Call (Fin n → K) β)) (hs : ∀ c ∈ h, c.isScore = false)
    (hs' : ∀ c ∈ h', c.isScore = false) (hl : (fitted h).length = (fitted h').length)
    (he : (fitted h).getLast? = (fitted h').getLast?) (x : Fin n → K) :
    (Inqmad.scorePartial env (calls (Inqmad.detector env) (Inqmad.new b) h).2 x).out =
    (Inqmad.scorePartial env (calls (Inqmad.detector env) (Inqmad.new b) h').2 x).out := by
  rw [C85_inqmad_scores_partial env b hb, C85_inqmad_scores_partial env b hb,
    fittedAtFirstScore_fits h hs, fittedAtFirstScore_fits h' hs']
  simp only [List.nil_append]
  rw [← he]
  unfold lastMeasure
  rw [hl]

/-- **C89 is false**: fit 0: its own score is 1, that of pi/2 is 0. -/
theorem C89_inqmad_refuted : ¬ C89_statement := by
  intro hst
  have h2 := C85_inqmad_scores_partial (β := Unit) inqExample 300 (by norm_num)
    [.fit (fun _ => 0) none] (fun _ => 0)
  have h3 := C85_inqmad_scores_partial (β := Unit) inqExample 300 (by norm_num)
    [.fit (fun _ => 0) none] (fun _ => Real.pi / 2)
  have h1 := hst 1 2 300 (fun _ _ => 1) (fun k => if k = 0 then 0 else Real.pi / 2) (by norm_num)
    (fun _ => 0) (fun _ => Real.pi / 2) _ _ h2 h3
  simp only [lastMeasure, inqExample_measure, projector, inqExample_feature,
    fittedAtFirstScore, List.nil_append, List.length_cons, List.length_nil] at h1
  have f := inqExample_feature 0
  simp [f] at h1
  linarith

/-! The hypotheses of the direction theorems are met. -/
example : ∃ k, randomFeatures (n := 1) (d := 2) (fun _ _ => 1)
    (fun k => if k = 0 then 0 else Real.pi / 2) (fun _ => 0) k ≠ 0 :=
  ⟨0, by simp [randomFeatures]⟩

example : (fittedAtFirstScore [] ([.fit 1 none, .fit 2 none, .score 3, .fit 4 none] :
    List (Call ℕ Unit))).getLast? = some 2 := rfl

example : ∃ k, Inqmad.compute inqExample (fun _ => 0) k ≠ 0 :=
  ⟨0, by rw [inqExample_compute]; simp⟩

end Pysad
