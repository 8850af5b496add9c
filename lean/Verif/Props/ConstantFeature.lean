import Verif.Props.FeatureOrder
import Verif.Props.RsHashInit
import Verif.Props.HstKernel
import Verif.Props.Inqmad

/-! Property C167: a feature that never changes does not matter. -/

namespace Pysad

open Spec

/-- The instance with one more feature, of value `c`. -/
def Spec.withFeature {K : Type*} {n : ℕ} (c : K) (x : Fin n → K) : Fin (n + 1) → K := Fin.snoc x c

theorem sum_withFeature {M K : Type*} [AddCommMonoid M] {n : ℕ} (c : K) (x : Fin n → K)
    (f : Fin (n + 1) → K → M) :
    ∑ i, f i (withFeature c x i) = (∑ i : Fin n, f i.castSucc (x i)) + f (Fin.last n) c := by
  rw [Fin.sum_univ_castSucc]
  simp [withFeature]

/-- **C167 (ExactStorm).** With one more feature, of the same value in all instances, every call of
every history is answered as without it. -/
theorem C167_storm {β : Type*} {n : ℕ} (c : ℝ) (w : ℕ) (r : ℝ) (cs : List (Call (Fin n → ℝ) β)) :
    (calls (exactStorm euclid) (StormState.new w r) (cs.map (Call.on (withFeature c)))).1 =
      (calls (exactStorm euclid) (StormState.new w r) cs).1 := by
  refine C105_storm_units euclid euclid (withFeature c) w r r (fun x z => ?_) cs
  unfold euclid
  rw [Fin.sum_univ_castSucc]
  simp [withFeature]

/-! ### `xStream`, `StreamhashProjector` -/

section
variable {K : Type*} [Field K] [LinearOrder K]

omit [LinearOrder K] in
theorem zipWith_zero_tail (x : List K) (f : ℕ → K) :
    (List.zipWith (· * ·) (x ++ [0]) ((List.range (x.length + 1)).map f)).sum =
      (List.zipWith (· * ·) x ((List.range x.length).map f)).sum := by
  rw [List.range_succ, List.map_append, List.zipWith_append (by simp), List.sum_append]
  simp

/-- **C167 (StreamhashProjector).** A feature that is zero does not change the projection. -/
theorem C167_streamhash (mmh3 : String → ℕ → ℕ) (s : StreamhashState K) (x : List K) :
    (Streamhash.transformer mmh3).transformPartial s (x ++ [0]) =
      (Streamhash.transformer mmh3).transformPartial s x := by
  simp only [Streamhash.transformer, Streamhash.transformPartial, Streamhash.matrix,
    Streamhash.dotRows, List.length_append, List.length_singleton, List.map_map]
  congr 3
  apply List.map_congr_left
  intro k _
  exact zipWith_zero_tail x _

variable [IsStrictOrderedRing K] [FloorRing K] {k : ℕ}

omit [IsStrictOrderedRing K] [FloorRing K] in
theorem project_zero_tail (mmh3 : String → ℕ → ℕ) (q : StreamhashState K) (x : List K) :
    (XStream.project mmh3 q (x ++ [0]) : Fin k → K) = XStream.project mmh3 q x := by
  funext i
  unfold XStream.project
  rw [List.length_append, List.length_singleton]
  exact zipWith_zero_tail x _

/-- **C167 (xStream).** With one more feature that is zero in all instances, every call of every
history is answered as without it. -/
theorem C167_xstream {β : Type*} (log2 : K → K) (mmh3 : String → ℕ → ℕ) (p : StreamhashState K)
    (W : ℕ) (draws : List (XsDraw K k)) (cs : List (Call (List K) β)) :
    (calls (XStream.detector mmh3 log2) (XStream.new p W draws)
        (cs.map (Call.on fun x => x ++ [0]))).1 =
      (calls (XStream.detector mmh3 log2) (XStream.new p W draws) cs).1 := by
  have h := calls_two (d := XStream.detector (β := β) mmh3 log2) (d' := XStream.detector mmh3 log2)
    (fun x => x) (fun x => x ++ [0]) (fun s c => ?_) (XStream.new p W draws) cs
  · rw [h]
    congr 2
    conv_rhs => rw [← List.map_id cs]
    apply List.map_congr_left
    intro c _
    cases c <;> rfl
  · cases c with
    | fit x y => exact (call_reorder log2 mmh3 mmh3 s x _ (project_zero_tail mmh3 s.streamhash x)).1 y
    | score x =>
      exact (call_reorder (β := β) log2 mmh3 mmh3 s x _ (project_zero_tail mmh3 s.streamhash x)).2

end

/-! ### `Inqmad` -/

/-- The draws for `n` features and one more, with weights `w`. -/
def Spec.InqEnv.withFeature {K : Type*} {n d : ℕ} (env : InqEnv K n d) (w : Fin d → K) :
    InqEnv K (n + 1) d := { env with weights := Fin.snoc env.weights w }

/-- **C167 (Inqmad).** With one more feature that is zero in all instances, whatever its weights, every
call of every history is answered as without it. -/
theorem C167_inqmad {β K : Type*} [Field K] {n d : ℕ} (env : InqEnv K n d) (w : Fin d → K)
    (batchSize : ℕ) (cs : List (Call (Fin n → K) β)) :
    (calls (Inqmad.detector (InqEnv.withFeature env w)) (Inqmad.new batchSize)
        (cs.map (Call.on (withFeature 0)))).1 =
      (calls (Inqmad.detector env) (Inqmad.new batchSize) cs).1 := by
  have hf : ∀ x, Inqmad.feature (InqEnv.withFeature env w) (withFeature 0 x) =
      Inqmad.feature env x := by
    intro x
    have hc : Inqmad.compute (InqEnv.withFeature env w) (withFeature 0 x) = Inqmad.compute env x := by
      funext k
      unfold Inqmad.compute
      rw [Fin.sum_univ_castSucc]
      simp [withFeature, InqEnv.withFeature]
    funext k
    simp only [Inqmad.feature, hc]
    rfl
  refine answers_of_sim (withFeature 0) (fun s t => t = s) (fun s t c h => ?_) _ _ rfl cs
  subst h
  cases c with
  | fit x y =>
    simp [call, Call.on, Inqmad.detector, Inqmad.fitPartial, Inqmad.computeTraining, hf]
  | score x => simp [call, Call.on, Inqmad.detector, Inqmad.scorePartial, hf]

/-! ### `RSHash` -/

/-- **C167 (RSHash).** Told by its bounds that some features never change (and that not all are so),
RSHash does not look at them: streams of instances that agree in the other features are answered
alike, call by call. -/
theorem C167_rshash {β γ G : Type*} {dim : ℕ} (rnd : RsRandom G ℝ dim) (mins maxs : Fin dim → ℝ)
    (hne : ∃ i, mins i ≠ maxs i) (sp : ℕ) (decay : ℝ) (hd : decay ≠ 0) (m nh : ℕ) (g : G)
    (x x' : γ → Fin dim → ℝ) (hx : ∀ a i, mins i ≠ maxs i → x' a i = x a i)
    (cs : List (Call γ β)) :
    ∃ s0 g', RsHash.init realPow2 Real.log Real.sqrt rnd (.arrays mins maxs) sp decay m nh g =
        (.ok s0, g') ∧
      (calls (RsHash.detector realPow2 Real.log) s0 (cs.map (Call.on x'))).1 =
        (calls (RsHash.detector realPow2 Real.log) s0 (cs.map (Call.on x))).1 := by
  obtain ⟨comps, g', h1, -, -, h4⟩ := C94_rshash_init rnd (by
    obtain ⟨i, -⟩ := hne; have := i.2; omega) (.arrays mins maxs) sp decay hd m nh g
  have hc := h4 mins maxs rfl hne
  refine ⟨_, g', h1, ?_⟩
  have hcell : ∀ r, ∀ c ∈ comps, ∀ a, RsHash.cell r c (x' a) = RsHash.cell r c (x a) := by
    intro r c hm a
    unfold RsHash.cell
    congr 1
    apply List.map_congr_left
    intro p hp
    rw [hx a p.1 (hc c hm p hp)]
  have hcomp : ∀ a dec ix (l : List (RsComponent ℝ dim)), (∀ c ∈ l, c ∈ comps) → ∀ r acc sk,
      RsHash.components realPow2 Real.log dec ix (x' a) r l acc sk =
        RsHash.components realPow2 Real.log dec ix (x a) r l acc sk := by
    intro a dec ix l
    induction l with
    | nil => intros; rfl
    | cons c l ih =>
      intro hl r acc sk
      simp only [RsHash.components, hcell r c (hl c (by simp)) a]
      split
      · rfl
      · exact ih (fun c hc => hl c (by simp [hc])) _ _ _
  refine answers_of_sim2 x x' (fun s t => t = s ∧ s.components = comps) ?_ ?_ _ _ ⟨rfl, rfl⟩ cs
  · rintro s t ⟨rfl, hs⟩ a y
    simp only [RsHash.detector, RsHash.fitPartial]
    rw [hs, hcomp a _ _ comps fun c hc => hc]
    cases RsHash.components realPow2 Real.log t.decay t.index (x a) 0 comps 0 t.cmsketches with
    | err e sk => exact ⟨rfl, rfl, rfl⟩
    | ok score sk =>
      simp only
      split
      · exact ⟨rfl, rfl, rfl⟩
      · exact ⟨rfl, rfl, rfl⟩
  · rintro s t ⟨rfl, hs⟩ a
    exact ⟨rfl, rfl, hs⟩

/-! ### Scalers -/

/-- **C167 (full statement for InstanceUnitNormScaler, false).** With one more feature that is zero, the
other features come out as without it. -/
def C167_unit_norm_statement : Prop :=
  ∀ (o : NormOrd) (n : ℕ) (x : Fin n → ℝ), 0 < n →
    (match o with | .fin p => 0 ≤ p | _ => True) →
    ((instanceUnitNormScaler o (n + 1)).transformPartial () (withFeature 0 x)).bind
      (fun y s => .ok (fun i : Fin n => y i.castSucc) s) =
    (instanceUnitNormScaler o n).transformPartial () x

theorem npNorm_zero (o : NormOrd) (ho : match o with | .fin p => 0 ≤ p | .posInf => True | .negInf => False)
    {n : ℕ} (hn : 0 < n) (x : Fin n → ℝ) : npNorm o (withFeature 0 x) = npNorm o x := by
  unfold npNorm
  match o, ho with
  | .posInf, _ =>
    have hne : (Finset.univ : Finset (Fin n)).Nonempty := ⟨⟨0, hn⟩, Finset.mem_univ _⟩
    have hne' : (Finset.univ : Finset (Fin (n + 1))).Nonempty := ⟨0, Finset.mem_univ _⟩
    simp only [npMaxFin, dif_pos hne, dif_pos hne']
    congr 1
    apply le_antisymm
    · refine Finset.sup'_le _ _ fun i _ => ?_
      induction i using Fin.lastCases with
      | last =>
        simp only [withFeature, Fin.snoc_last, abs_zero]
        exact (abs_nonneg _).trans (Finset.le_sup' (fun i => |x i|) (Finset.mem_univ ⟨0, hn⟩))
      | cast i =>
        simp only [withFeature, Fin.snoc_castSucc]
        exact Finset.le_sup' (fun i => |x i|) (Finset.mem_univ i)
    · refine Finset.sup'_le _ _ fun i _ => ?_
      have := Finset.le_sup' (fun i => |withFeature 0 x i|) (Finset.mem_univ i.castSucc)
      rwa [show withFeature 0 x i.castSucc = x i by simp [withFeature]] at this
  | .fin p, hp =>
    simp only
    split
    · congr 1
      rw [Finset.card_filter, Finset.card_filter, Fin.sum_univ_castSucc]
      simp [withFeature]
    · rename_i h0
      split
      · rw [Fin.sum_univ_castSucc]; simp [withFeature]
      · split
        · rw [Fin.sum_univ_castSucc]; simp [withFeature]
        · rw [Fin.sum_univ_castSucc]; simp [withFeature, Real.zero_rpow h0]

/-- **C167 (InstanceUnitNormScaler), partial:** for every order but minus infinity. -/
theorem C167_unit_norm_partial (o : NormOrd)
    (ho : match o with | .fin p => 0 ≤ p | .posInf => True | .negInf => False)
    (n : ℕ) (hn : 0 < n) (x : Fin n → ℝ) :
    ((instanceUnitNormScaler o (n + 1)).transformPartial () (withFeature 0 x)).bind
      (fun y s => .ok (fun i : Fin n => y i.castSucc) s) =
    (instanceUnitNormScaler o n).transformPartial () x := by
  simp only [instanceUnitNormScaler, instanceUnitNorm, npNorm_zero o ho hn]
  cases npNorm o x with
  | error e => rfl
  | ok v => simp [Res.ofExcept, Except.map, Res.bind, withFeature]

theorem C167_unit_norm_refuted : ¬ C167_unit_norm_statement := by
  intro h
  have := h .negInf 1 (fun _ => 1) one_pos trivial
  have h1 : npNorm .negInf (fun _ : Fin 1 => (1 : ℝ)) = .ok 1 := by
    simp [npNorm, npMinFin]
  have h2 : npNorm .negInf (withFeature 0 (fun _ : Fin 1 => (1 : ℝ))) = .ok 0 := by
    have hne : (Finset.univ : Finset (Fin (1 + 1))).Nonempty := ⟨0, Finset.mem_univ _⟩
    simp only [npNorm, npMinFin, dif_pos hne]
    congr 1
    apply le_antisymm
    · refine (Finset.inf'_le _ (Finset.mem_univ (Fin.last 1))).trans (le_of_eq ?_)
      rw [withFeature, Fin.snoc_last, abs_zero]
    · exact Finset.le_inf' _ _ fun i _ => abs_nonneg _
  simp only [instanceUnitNormScaler, instanceUnitNorm, h1, h2, Res.ofExcept, Except.map, Res.bind,
    Res.ok.injEq, and_true] at this
  have := congrFun this 0
  simp [npDiv, withFeature] at this

/-- **C167 (full statement for InstanceStandardScaler, false).** -/
def C167_standard_statement : Prop :=
  ∀ (n : ℕ) (x : Fin n → ℝ), 0 < n →
    ((instanceStandardScaler Real.sqrt (n + 1)).transformPartial () (withFeature 0 x)).bind
      (fun y s => .ok (fun i : Fin n => y i.castSucc) s) =
    (instanceStandardScaler Real.sqrt n).transformPartial () x

/-- InstanceStandardScaler standardises over the features: a feature that is zero moves the mean. -/
theorem C167_standard_refuted : ¬ C167_standard_statement := by
  intro h
  have := h 3 ![1, 2, 3] (by norm_num)
  simp only [instanceStandardScaler, Res.bind, Res.ok.injEq, and_true] at this
  have := congrFun this 1
  have m1 : npMeanFin (![1, 2, 3] : Fin 3 → ℝ) = 2 := by
    simp [npMeanFin, Fin.sum_univ_succ]; norm_num
  have m2 : npMeanFin (withFeature 0 (![1, 2, 3] : Fin 3 → ℝ)) = 3 / 2 := by
    unfold npMeanFin
    rw [Fin.sum_univ_castSucc]
    simp [withFeature, Fin.sum_univ_succ]; norm_num
  have s2 : npStdFin Real.sqrt (withFeature 0 (![1, 2, 3] : Fin 3 → ℝ)) ≠ 0 := by
    unfold npStdFin
    rw [m2, Fin.sum_univ_castSucc, Real.sqrt_ne_zero']
    simp [withFeature, Fin.sum_univ_succ]; norm_num
  simp only [instanceStandardize, m1, m2] at this
  rw [show withFeature 0 (![1, 2, 3] : Fin 3 → ℝ) (Fin.castSucc 1) = 2 by simp [withFeature]] at this
  unfold npDiv at this
  rw [if_neg s2] at this
  split_ifs at this with h1
  · simp only [Num.fin.injEq] at this
    rw [show (![1, 2, 3] : Fin 3 → ℝ) 1 = 2 from rfl, sub_self, zero_div, div_eq_zero_iff] at this
    rcases this with h' | h'
    · norm_num at h'
    · exact s2 h'

/-! ### `HalfSpaceTrees` -/

/-- **C167 (full statement for HalfSpaceTrees, false).** The expected score over the drawn splits is the
same with one more feature, of the same value `c` in all instances and with bounds around `c`. -/
def C167_hst_statement : Prop :=
  ∀ (d D T w : ℕ), 0 < d → 0 < T → 1 ≤ w → ∀ (lo hi : List ℝ), lo.length = d → hi.length = d →
    (∀ j, feature lo j ≤ feature hi j) → ∀ a b c : ℝ, a ≤ c → c ≤ b →
    ∀ (cs : List (Call (List ℝ) Unit)), (∀ x ∈ fitted cs, x.length = d) →
    ∀ x : List ℝ, x.length = d →
    ∀ (score : (Fin T → Fin (2 ^ D - 1) → Fin d) → ℝ)
      (score' : (Fin T → Fin (2 ^ D - 1) → Fin (d + 1)) → ℝ),
      (∀ ω, ∃ s0, Hst.new nextDraw lo hi w T D (drawsOf ω) = .ok s0 ∧
        ((Hst.detector ℝ Unit).scorePartial (calls (Hst.detector ℝ Unit) s0 cs).2 x).out =
          .ok (score ω)) →
      (∀ ω, ∃ s0, Hst.new nextDraw (lo ++ [a]) (hi ++ [b]) w T D (drawsOf ω) = .ok s0 ∧
        ((Hst.detector ℝ Unit).scorePartial (calls (Hst.detector ℝ Unit) s0
          (cs.map (Call.on (· ++ [c])))).2 (x ++ [c])).out = .ok (score' ω)) →
      expectation score' = expectation score

namespace HstKernel

theorem expect_swap {A B : Type*} [Fintype A] [Fintype B] (f : A → B → ℝ) :
    (expectation fun a => expectation fun b => f a b) =
      expectation fun b => expectation fun a => f a b := by
  unfold expectation
  rw [← Finset.sum_div, ← Finset.sum_div, Finset.sum_comm, div_right_comm]

/-- The drawn feature, or another draw if it is the additional one. -/
def redrawn {d : ℕ} (b : Fin d) (a : Fin (d + 1)) : Fin d := Fin.lastCases (motive := fun _ => Fin d) b (fun i => i) a

theorem redraw_one {d : ℕ} [NeZero d] (G : Fin d → ℝ) :
    (expectation fun a : Fin (d + 1) => expectation fun b : Fin d => G (redrawn b a)) =
      expectation G := by
  have hd : (d : ℝ) ≠ 0 := by exact_mod_cast NeZero.ne d
  have hd' : (d : ℝ) + 1 ≠ 0 := by positivity
  have e1 : ∀ i : Fin d, (expectation fun b : Fin d => G (redrawn b i.castSucc)) = G i := by
    intro i
    rw [Expect.congr (g := fun _ => G i) fun b => by simp [redrawn], Expect.const]
  have e2 : (expectation fun b : Fin d => G (redrawn b (Fin.last d))) = expectation G := by
    exact Expect.congr fun b => by simp [redrawn]
  have e3 : ∑ i, G i = d * expectation G := by
    unfold expectation
    rw [Fintype.card_fin]
    field_simp
  rw [expectation, Fin.sum_univ_castSucc, e2]
  simp only [e1]
  rw [e3, Fintype.card_fin]
  push_cast
  field_simp

theorem redraw {d : ℕ} [NeZero d] : ∀ (k : ℕ) (F : (Fin k → Fin d) → ℝ),
    (expectation fun q : Fin k → Fin (d + 1) => expectation fun r : Fin k → Fin d =>
      F fun i => redrawn (r i) (q i)) = expectation F := by
  intro k
  induction k with
  | zero =>
    intro F
    have : ∀ v : Fin 0 → Fin d, F v = F (fun i => i.elim0) := fun v => congrArg F (Subsingleton.elim _ _)
    rw [Expect.congr this, Expect.const]
    rw [Expect.congr (g := fun _ => F fun i => i.elim0) fun q => by
      rw [Expect.congr (g := fun _ => F fun i => i.elim0) fun r => this _, Expect.const], Expect.const]
  | succ k ih =>
    intro F
    rw [Expect.cons k F, ← redraw_one, Expect.cons]
    apply Expect.congr
    intro a
    rw [Expect.congr (fun q => Expect.cons _ _), expect_swap]
    apply Expect.congr
    intro b
    rw [← ih]
    refine Expect.congr fun q => Expect.congr fun r => congrArg F ?_
    funext i
    refine Fin.cases ?_ (fun i => ?_) i
    · simp
    · simp

theorem samePart_coarser {a b : ℝ} {c c' : ℕ} (h : c ≤ c') {v w : ℝ} (hs : SamePart a b c' v w) :
    SamePart a b c v w := by
  intro m h1 h2
  obtain ⟨e, rfl⟩ := Nat.exists_eq_add_of_le h
  have h3 := hs (m * 2 ^ e) (by positivity) (by
    rw [pow_add]; exact Nat.mul_lt_mul_of_pos_right h2 (by positivity))
  have e1 : a + ((m * 2 ^ e : ℕ) : ℝ) * ((b - a) / 2 ^ (c + e)) = a + m * ((b - a) / 2 ^ c) := by
    push_cast
    rw [pow_add]
    field_simp
  rwa [e1] at h3

theorem feature_append_left {l : List ℝ} {d : ℕ} (h : l.length = d) (c : ℝ) (j : Fin d) :
    feature (l ++ [c]) (j.castSucc : Fin (d + 1)) = feature l j := by
  unfold feature
  have := j.2
  rw [Fin.val_castSucc, List.getD_eq_getElem?_getD, List.getD_eq_getElem?_getD,
    List.getElem?_append_left (by omega)]

theorem feature_append_last {l : List ℝ} {d : ℕ} (h : l.length = d) (c : ℝ) :
    feature (l ++ [c]) (Fin.last d) = c := by
  unfold feature
  subst h
  simp

/-- With one more feature in which they agree, instances look at least as similar. -/
theorem kernel_withFeature {d : ℕ} (hd : 0 < d) (D : ℕ) (lo hi : List ℝ) (hlo : lo.length = d)
    (hhi : hi.length = d) (a b c : ℝ) (x y : List ℝ) (hx : x.length = d) (hy : y.length = d) :
    boxKernel d lo hi D x y ≤ boxKernel (d + 1) (lo ++ [a]) (hi ++ [b]) D (x ++ [c]) (y ++ [c]) := by
  classical
  have : NeZero d := ⟨by omega⟩
  refine Finset.sum_le_sum fun k _ => mul_le_mul_of_nonneg_left ?_ (by positivity)
  unfold boxChance
  rw [fraction_eq, fraction_eq, ← redraw]
  refine Expect.mono fun q => ?_
  rw [← Expect.const (Ω := Fin k → Fin d) (if SameBox (lo ++ [a]) (hi ++ [b]) q (x ++ [c]) (y ++ [c])
    then (1 : ℝ) else 0)]
  refine Expect.mono fun r => ?_
  by_cases h : SameBox lo hi (fun i => redrawn (r i) (q i)) x y
  · rw [if_pos h, if_pos]
    intro j
    induction j using Fin.lastCases with
    | last =>
      rw [feature_append_last hx, feature_append_last hy]
      exact samePart_refl _ _ _ _
    | cast j =>
      rw [feature_append_left hlo, feature_append_left hhi, feature_append_left hx,
        feature_append_left hy]
      refine samePart_coarser (Finset.card_le_card fun i hi => ?_) (h j)
      rw [Finset.mem_filter] at hi ⊢
      refine ⟨hi.1, ?_⟩
      simp [redrawn, hi.2]
  · rw [if_neg h]
    split_ifs <;> norm_num

end HstKernel

open HstKernel

theorem hst_scores_agree {β : Type*} {d T n w D : ℕ} {lo hi : List ℝ} {cs : List (Call (List ℝ) β)}
    {x : List ℝ} {score score' : (Fin T → Fin n → Fin d) → ℝ}
    (h : ∀ ω, ∃ s0, Hst.new nextDraw lo hi w T D (drawsOf ω) = .ok s0 ∧
      ((Hst.detector ℝ β).scorePartial (calls (Hst.detector ℝ β) s0 cs).2 x).out = .ok (score ω))
    (h' : ∀ ω, ∃ s0, Hst.new nextDraw lo hi w T D (drawsOf ω) = .ok s0 ∧
      ((Hst.detector ℝ β).scorePartial (calls (Hst.detector ℝ β) s0 cs).2 x).out = .ok (score' ω)) :
    score = score' := by
  funext ω
  obtain ⟨s, h1, h2⟩ := h ω
  obtain ⟨t, h3, h4⟩ := h' ω
  rw [h1] at h3
  cases h3
  rw [h2] at h4
  simpa using h4

theorem referenceWindow_map {α α' : Type*} (f : α → α') (w : ℕ) (X : List α) :
    referenceWindow w (X.map f) = (referenceWindow w X).map f := by
  unfold referenceWindow
  rw [List.length_map]
  split_ifs
  · rfl
  · rw [List.map_take, List.map_drop]

theorem mem_of_referenceWindow {α : Type*} {w : ℕ} {X : List α} {y : α}
    (h : y ∈ referenceWindow w X) : y ∈ X := by
  unfold referenceWindow at h
  split_ifs at h
  · exact h
  · exact List.mem_of_mem_drop (List.mem_of_mem_take h)

/-- **C167 (HalfSpaceTrees), partial:** a feature of the same value in all instances does not raise the
expected score. -/
theorem C167_hst_partial {β : Type*} (d D T w : ℕ) (hd : 0 < d) (hT : 0 < T) (hw : 1 ≤ w)
    (lo hi : List ℝ) (hlo : lo.length = d) (hhi : hi.length = d)
    (hb : ∀ j, feature lo j ≤ feature hi j) (a b c : ℝ) (hab : a ≤ b)
    (cs : List (Call (List ℝ) β)) (hX : ∀ x ∈ fitted cs, x.length = d) (x : List ℝ)
    (hx : x.length = d) (score : (Fin T → Fin (2 ^ D - 1) → Fin d) → ℝ)
    (score' : (Fin T → Fin (2 ^ D - 1) → Fin (d + 1)) → ℝ)
    (h : ∀ ω, ∃ s0, Hst.new nextDraw lo hi w T D (drawsOf ω) = .ok s0 ∧
      ((Hst.detector ℝ β).scorePartial (calls (Hst.detector ℝ β) s0 cs).2 x).out = .ok (score ω))
    (h' : ∀ ω, ∃ s0, Hst.new nextDraw (lo ++ [a]) (hi ++ [b]) w T D (drawsOf ω) = .ok s0 ∧
      ((Hst.detector ℝ β).scorePartial (calls (Hst.detector ℝ β) s0
        (cs.map (Call.on (· ++ [c])))).2 (x ++ [c])).out = .ok (score' ω)) :
    expectation score' ≤ expectation score := by
  obtain ⟨s1, h1, e1, -⟩ := C154_hst_expected d D T w hd hT hw lo hi hlo hhi hb cs hX x hx
  have hb' : ∀ j, feature (lo ++ [a]) j ≤ feature (hi ++ [b]) j := by
    intro j
    unfold feature
    rw [List.getD_eq_getElem?_getD, List.getD_eq_getElem?_getD]
    rcases lt_trichotomy j d with hj | rfl | hj
    · rw [List.getElem?_append_left (by omega), List.getElem?_append_left (by omega),
        ← List.getD_eq_getElem?_getD, ← List.getD_eq_getElem?_getD]
      exact hb j
    · rw [List.getElem?_append_right (by omega), List.getElem?_append_right (by omega)]
      simpa [hlo, hhi] using hab
    · rw [List.getElem?_eq_none (by simp; omega), List.getElem?_eq_none (by simp; omega)]
  obtain ⟨s2, h2, e2, -⟩ := C154_hst_expected (d + 1) D T w (by omega) hT hw (lo ++ [a]) (hi ++ [b])
    (by simp [hlo]) (by simp [hhi]) hb' (cs.map (Call.on (· ++ [c])))
    (by
      rw [fitted_on]
      intro z hz
      obtain ⟨y, hy, rfl⟩ := List.mem_map.1 hz
      simp [hX y hy]) (x ++ [c]) (by simp [hx])
  rw [hst_scores_agree h h1, hst_scores_agree h' h2, e1, e2, fitted_on, referenceWindow_map,
    List.map_map]
  apply neg_le_neg
  apply mul_le_mul_of_nonneg_left _ (by positivity)
  apply List.sum_le_sum
  intro y hy
  exact kernel_withFeature hd D lo hi hlo hhi a b c x y hx
    (hX y (mem_of_referenceWindow hy))

/-- HalfSpaceTrees spends splits on a feature that never changes. -/
theorem C167_hst_refuted : ¬ C167_hst_statement := by
  intro h
  have hb1 : ∀ j, feature [0] j ≤ feature ([4] : List ℝ) j := by
    intro j; match j with | 0 => simp [feature] | j + 1 => simp [feature]
  have hb2 : ∀ j, feature [0, 0] j ≤ feature ([4, 4] : List ℝ) j := by
    intro j; match j with | 0 => simp [feature] | 1 => simp [feature] | j + 2 => simp [feature]
  obtain ⟨s1, h1, e1, -⟩ := C154_hst_expected (β := Unit) 1 1 1 1 one_pos one_pos le_rfl [0] [4] rfl rfl
    hb1 [.fit [1] none] (by simp [fitted]) [3] rfl
  obtain ⟨s2, h2, e2, -⟩ := C154_hst_expected (β := Unit) 2 1 1 1 two_pos one_pos le_rfl [0, 0] [4, 4]
    rfl rfl hb2 [.fit [1, 0] none] (by simp [fitted]) [3, 0] rfl
  have := h 1 1 1 1 one_pos one_pos le_rfl [0] [4] rfl rfl hb1 0 4 0 le_rfl (by norm_num)
    [.fit [1] none] (by simp [fitted]) [3] rfl s1 s2 h1 h2
  rw [e1, e2] at this
  have r1 : referenceWindow 1 (fitted [(.fit [1] none : Call (List ℝ) Unit)]) = [[1]] := by
    simp [fitted, referenceWindow]
  have r2 : referenceWindow 1 (fitted [(.fit [1, 0] none : Call (List ℝ) Unit)]) = [[1, 0]] := by
    simp [fitted, referenceWindow]
  rw [r1, r2] at this
  simp only [Nat.cast_one, one_mul, List.map_cons, List.map_nil, List.sum_cons, List.sum_nil,
    add_zero, neg_inj, boxKernel, Finset.sum_range_succ, Finset.sum_range_zero, zero_add, pow_zero,
    pow_one] at this
  have z1 : boxChance 1 [0] [4] 0 [3] [1] = 1 := fraction_true fun q j => by
    rw [show timesDrawn q j = 0 by simp [timesDrawn]]
    exact samePart_zero _ _ _ _
  have z2 : boxChance 2 [0, 0] [4, 4] 0 [3, 0] [1, 0] = 1 := fraction_true fun q j => by
    rw [show timesDrawn q j = 0 by simp [timesDrawn]]
    exact samePart_zero _ _ _ _
  classical
  have o1 : boxChance 1 [0] [4] 1 [3] [1] = 0 := by
    unfold boxChance
    rw [fraction_eq, Expect.congr (g := fun _ => (0 : ℝ)) fun q => if_neg ?_, Expect.const]
    intro h
    have h0 := h 0
    rw [show timesDrawn q (0 : Fin 1) = 1 by
      unfold timesDrawn
      rw [Finset.filter_true_of_mem fun i _ => Subsingleton.elim _ _]
      simp] at h0
    have h2 := h0 1 one_pos (by norm_num)
    simp [feature] at h2
    norm_num at h2
  have o2 : 0 < boxChance 2 [0, 0] [4, 4] 1 [3, 0] [1, 0] := by
    unfold boxChance fraction
    apply div_pos _ (by positivity)
    rw [Nat.cast_pos, Finset.card_pos]
    refine ⟨fun _ => 1, Finset.mem_filter.2 ⟨Finset.mem_univ _, fun j => ?_⟩⟩
    match j with
    | 0 =>
      rw [show timesDrawn (fun _ : Fin 1 => (1 : Fin 2)) 0 = 0 by decide]
      exact samePart_zero _ _ _ _
    | 1 => exact samePart_refl _ _ _ _
  rw [z1, z2, o1] at this
  linarith

/-- Two instances and a constant third feature in ExactStorm: `0.5` of the window is near. -/
example : (calls (exactStorm euclid) (StormState.new 2 (2 : ℝ))
    [(.fit (withFeature 7 ![0, 0]) none : Call (Fin 3 → ℝ) Unit), .fit (withFeature 7 ![3, 0]) none,
      .score (withFeature 7 ![0, 1])]).1 =
    (calls (exactStorm euclid) (StormState.new 2 (2 : ℝ))
    [(.fit ![0, 0] none : Call (Fin 2 → ℝ) Unit), .fit ![3, 0] none, .score ![0, 1]]).1 :=
  C167_storm 7 2 2 [.fit ![0, 0] none, .fit ![3, 0] none, .score ![0, 1]]

/-- Bounds of two features of which the first never changes. -/
example {γ G : Type*} (rnd : RsRandom G ℝ 2) (g : G) (x : γ → Fin 2 → ℝ) (cs : List (Call γ Unit)) :=
  C167_rshash (β := Unit) rnd ![5, 0] ![5, 1] ⟨1, by simp⟩ 1000 (15 / 1000) (by norm_num) 100 1 g
    x (fun a => ![0, x a 1]) (by
      intro a i hi
      match i with
      | 0 => simp at hi
      | 1 => rfl) cs

end Pysad
