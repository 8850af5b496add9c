import Verif.Props.KitNet

/-! Property C148: KitNet notices an instance that is far outside of what it was trained on. -/

namespace Pysad

open Spec

section
variable {K : Type*} [Field K] [LinearOrder K] [IsStrictOrderedRing K] [FloorRing K] {n : ℕ}

/-- If the entry of every training vector lies between two bounds, so do its norms. -/
theorem da_norm_range (env : KnEnv K) (s : DaState K) (x : ℕ → K) (p : ℕ) (lo hi : K)
    (hx : lo ≤ x p ∧ x p ≤ hi)
    (hs : ∀ mx mn, s.norm = some (mx, mn) → lo ≤ mn p ∧ mn p ≤ mx p ∧ mx p ≤ hi) :
    ∃ mx mn, (Da.train env s x).2.norm = some (mx, mn) ∧ lo ≤ mn p ∧ mn p ≤ mx p ∧ mx p ≤ hi := by
  have h : (Da.train env s x).2.norm = some (Da.updateNorm s x) := rfl
  rw [h]
  unfold Da.updateNorm
  cases hn : s.norm with
  | none => exact ⟨x, x, rfl, hx.1, le_rfl, hx.2⟩
  | some q =>
    obtain ⟨mx, mn⟩ := q
    obtain ⟨h1, h2, h3⟩ := hs mx mn hn
    refine ⟨_, _, rfl, ?_, ?_, ?_⟩
    · split
      · exact hx.1
      · exact h1
    · split
      · split
        · exact le_rfl
        · rename_i g1 g2; exact g1.le.trans (h2)
      · split
        · rename_i g1 g2; exact h2.trans g2.le
        · exact h2
    · split
      · exact hx.2
      · exact h3

theorem autoencoderAfter_range (env : KnEnv K) (lr hr : K) (T : List (Fin n → K)) (hT : T ≠ [])
    (idx : List (Fin n)) (p : ℕ) (hp : p < idx.length) (lo hi : K)
    (h : ∀ t ∈ T, lo ≤ t idx[p] ∧ t idx[p] ≤ hi) :
    ∃ mx mn, (autoencoderAfter env lr hr T idx).norm = some (mx, mn) ∧
      lo ≤ mn p ∧ mn p ≤ mx p ∧ mx p ≤ hi := by
  induction T using List.reverseRecOn with
  | nil => exact absurd rfl hT
  | append_singleton T x ih =>
    rw [autoencoderAfter_snoc]
    refine da_norm_range env _ _ p lo hi ?_ ?_
    · have := h x (by simp)
      simpa [featuresOf, hp] using this
    · intro mx mn hn
      by_cases hT' : T = []
      · rw [(autoencoderAfter_norm env lr hr T idx).2 hT'] at hn; cases hn
      · obtain ⟨mx', mn', h1, h2⟩ := ih hT' fun t ht => h t (by simp [ht])
        rw [hn] at h1
        obtain ⟨rfl, rfl⟩ := Prod.mk.inj (Option.some.inj h1)
        exact h2

theorem autoencoderAfter_visible (env : KnEnv K) (lr hr : K) (T : List (Fin n → K))
    (idx : List (Fin n)) : (autoencoderAfter env lr hr T idx).nVisible = idx.length := by
  induction T using List.reverseRecOn with
  | nil => rfl
  | append_singleton T x ih => rw [autoencoderAfter_snoc, ← ih]; rfl

theorem outputAfter_visible (env : KnEnv K) (lr hr : K) (v : List (List (Fin n)))
    (T : List (Fin n → K)) : (outputAfter env lr hr v T).nVisible = v.length := by
  induction T using List.reverseRecOn with
  | nil => rfl
  | append_singleton T x ih => rw [outputAfter_snoc, ← ih]; rfl

end

/-- The norms of the output autoencoder lie in `[0, 1]`. -/
theorem outputAfter_range {n : ℕ} (env : KnEnv ℝ) (hsq : env.sqrt = Real.sqrt)
    (hsig : env.sigmoid = logistic) (lr hr : ℝ) (v : List (List (Fin n)))
    (T : List (Fin n → ℝ)) (hT : T ≠ []) (p : ℕ) :
    ∃ mx mn, (outputAfter env lr hr v T).norm = some (mx, mn) ∧
      0 ≤ mn p ∧ mn p ≤ mx p ∧ mx p ≤ 1 := by
  induction T using List.reverseRecOn with
  | nil => exact absurd rfl hT
  | append_singleton T x ih =>
    rw [outputAfter_snoc]
    refine da_norm_range env _ _ p 0 1 ?_ ?_
    · unfold vectorOf
      split
      · exact C82_kitnet_errors env hsq hsig lr hr v T x _ (List.getElem_mem _)
      · exact ⟨le_rfl, zero_le_one⟩
    · intro mx mn hn
      by_cases hT' : T = []
      · rw [(outputAfter_norm env lr hr v T).2 hT'] at hn; cases hn
      · obtain ⟨mx', mn', h1, h2⟩ := ih hT'
        rw [hn] at h1
        obtain ⟨rfl, rfl⟩ := Prod.mk.inj (Option.some.inj h1)
        exact h2

/-- One entry of the mean of squares. -/
theorem le_sqrt_meanTo (N p : ℕ) (hp : p < N) (f : ℕ → ℝ) :
    |f p| / Real.sqrt N ≤ Real.sqrt (Da.meanTo N fun i => f i ^ 2) := by
  have hN : (0 : ℝ) < N := by exact_mod_cast (by omega : 0 < N)
  rw [← Real.sqrt_sq (abs_nonneg (f p)), ← Real.sqrt_div (sq_nonneg _), sq_abs]
  apply Real.sqrt_le_sqrt
  unfold Da.meanTo Da.sumTo
  refine div_le_div_of_nonneg_right ?_ hN.le
  refine List.single_le_sum ?_ _ (List.mem_map.2 ⟨p, List.mem_range.2 hp, rfl⟩)
  intro a ha
  obtain ⟨i, -, rfl⟩ := List.mem_map.1 ha
  positivity

/-- The reconstruction error when one entry is `d` outside of its norms. -/
theorem da_execute_far (env : KnEnv ℝ) (hsq : env.sqrt = Real.sqrt)
    (hsig : env.sigmoid = logistic) (s : DaState ℝ) (mx mn : ℕ → ℝ)
    (hn : s.norm = some (mx, mn)) (p : ℕ) (hp : p < s.nVisible) (hle : mn p ≤ mx p) (x : ℕ → ℝ)
    (d : ℝ) (hd : mx p + d ≤ x p ∨ x p ≤ mn p - d) :
    ∃ r, Da.execute env s x = .fin r ∧
      (d / (mx p - mn p + 1 / 10 ^ 16) - 1) / Real.sqrt s.nVisible ≤ r := by
  unfold Da.execute
  rw [hn]
  refine ⟨_, rfl, ?_⟩
  rw [hsq]
  refine le_trans ?_ (le_sqrt_meanTo s.nVisible p hp fun i => Da.normalise (mx, mn) x i -
    Da.visible env s (Da.hidden env s (Da.normalise (mx, mn) x)) i)
  refine div_le_div_of_nonneg_right ?_ (Real.sqrt_nonneg _)
  have hz : 0 ≤ Da.visible env s (Da.hidden env s (Da.normalise (mx, mn) x)) p ∧
      Da.visible env s (Da.hidden env s (Da.normalise (mx, mn) x)) p ≤ 1 := by
    unfold Da.visible
    rw [hsig]
    exact logistic_mem _
  generalize Da.visible env s (Da.hidden env s (Da.normalise (mx, mn) x)) p = z at hz
  have hw : 0 < mx p - mn p + 1 / 10 ^ 16 := by
    have : (0 : ℝ) < 1 / 10 ^ 16 := by positivity
    linarith
  unfold Da.normalise
  dsimp only
  rcases hd with hd | hd
  · refine le_trans ?_ (le_abs_self _)
    have : d / (mx p - mn p + 1 / 10 ^ 16) ≤ (x p - mn p) / (mx p - mn p + 1 / 10 ^ 16) :=
      div_le_div_of_nonneg_right (by linarith) hw.le
    linarith [hz.2]
  · refine le_trans ?_ (neg_le_abs _)
    have : d / (mx p - mn p + 1 / 10 ^ 16) ≤ -((x p - mn p) / (mx p - mn p + 1 / 10 ^ 16)) := by
      rw [← neg_div]
      exact div_le_div_of_nonneg_right (by linarith) hw.le
    linarith [hz.1]

/-- The score of an instance with one feature `d` outside of its training values. -/
theorem kitnetScore_far {n : ℕ} (env : KnEnv ℝ) (hsq : env.sqrt = Real.sqrt)
    (hsig : env.sigmoid = logistic) (lr hr : ℝ) (v : List (List (Fin n))) (hv : IsPartition v)
    (T : List (Fin n → ℝ)) (hT : T ≠ []) (i : Fin n) (lo hi : ℝ)
    (h : ∀ t ∈ T, lo ≤ t i ∧ t i ≤ hi) (x : Fin n → ℝ) (d : ℝ) (hd0 : 0 ≤ d)
    (hd : hi + d ≤ x i ∨ x i ≤ lo - d) :
    ∃ r, kitnetScore env lr hr v T x = .fin r ∧
      d / (2 * n * (hi - lo + 1 / 10 ^ 16)) - 3 ≤ r := by
  have hn1 : 1 ≤ n := by have := i.2; omega
  have hnR : (1 : ℝ) ≤ n := by exact_mod_cast hn1
  -- the autoencoder of the feature
  obtain ⟨idx, hidx, hmem⟩ : ∃ idx ∈ v, i ∈ idx := by
    have : i ∈ v.flatten := hv.1.mem_iff.2 (List.mem_finRange i)
    simpa using this
  obtain ⟨p, hp, rfl⟩ := List.getElem_of_mem hmem
  obtain ⟨k, hk, rfl⟩ := List.getElem_of_mem hidx
  have hlen : ∀ q ∈ v, q.length ≤ n := by
    intro q hq
    have h1 : q.length ≤ v.flatten.length := by
      rw [List.length_flatten]
      exact List.single_le_sum (by simp) _ (List.mem_map.2 ⟨q, hq, rfl⟩)
    rw [hv.1.length_eq, List.length_finRange] at h1
    exact h1
  have hvlen : v.length ≤ n := by
    have h1 : v.length ≤ v.flatten.length := by
      rw [List.length_flatten]
      have h2 : ∀ w : List (List (Fin n)), (∀ q ∈ w, q ≠ []) →
          w.length ≤ (w.map List.length).sum := by
        intro w
        induction w with
        | nil => simp
        | cons q w ih =>
          intro hw
          have := ih fun q hq => hw q (by simp [hq])
          have hq : 0 < q.length := List.length_pos_iff.2 (hw q (by simp))
          simp only [List.length_cons, List.map_cons, List.sum_cons]
          omega
      exact h2 v hv.2
    rw [hv.1.length_eq, List.length_finRange] at h1
    exact h1
  obtain ⟨mx, mn, hnorm, g1, g2, g3⟩ := autoencoderAfter_range env lr hr T hT v[k] p hp lo hi h
  have hlohi : lo ≤ hi := g1.trans (g2.trans g3)
  set w := hi - lo + 1 / 10 ^ 16 with hw
  have heps : (0 : ℝ) < 1 / 10 ^ 16 := by positivity
  have hwpos : 0 < w := by rw [hw]; linarith
  have hxp : featuresOf x v[k] p = x v[k][p] := by simp [featuresOf, hp]
  obtain ⟨r1, e1, b1⟩ := da_execute_far env hsq hsig (autoencoderAfter env lr hr T v[k]) mx mn hnorm
    p (by rw [autoencoderAfter_visible]; exact hp) g2 (featuresOf x v[k]) d
    (by
      rw [hxp]
      rcases hd with hd | hd
      · left; linarith
      · right; linarith)
  rw [autoencoderAfter_visible] at b1
  -- its error
  have hb1 : d / (w * Real.sqrt n) - 1 ≤ r1 := by
    refine le_trans ?_ b1
    have hs : (1 : ℝ) ≤ Real.sqrt (v[k].length) := by
      rw [Real.one_le_sqrt]
      exact_mod_cast (by omega : 1 ≤ v[k].length)
    have hs2 : Real.sqrt (v[k].length) ≤ Real.sqrt n :=
      Real.sqrt_le_sqrt (by exact_mod_cast hlen _ hidx)
    have h3 : d / w ≤ d / (mx p - mn p + 1 / 10 ^ 16) :=
      div_le_div_of_nonneg_left hd0 (by linarith) (by rw [hw]; linarith)
    have h4 : d / (w * Real.sqrt n) ≤ d / w / Real.sqrt (v[k].length) := by
      rw [← div_div]
      exact div_le_div_of_nonneg_left (by positivity) (by linarith) hs2
    have h5 : 1 / Real.sqrt (v[k].length) ≤ 1 := by
      rw [div_le_one (by linarith)]; exact hs
    calc d / (w * Real.sqrt n) - 1 ≤ d / w / Real.sqrt (v[k].length) - 1 / Real.sqrt (v[k].length) := by
          linarith
      _ = (d / w - 1) / Real.sqrt (v[k].length) := by rw [sub_div]
      _ ≤ _ := div_le_div_of_nonneg_right (by linarith) (by linarith)
  -- all errors are numbers
  have hfin : ∀ idx, ∃ r, Da.execute env (autoencoderAfter env lr hr T idx) (featuresOf x idx) = .fin r := by
    intro idx
    obtain ⟨r, hr', -⟩ := da_execute_fin env (by rw [hsq]; exact Real.sqrt_nonneg)
      (autoencoderAfter env lr hr T idx)
      (fun hc => hT ((autoencoderAfter_norm env lr hr T idx).1 hc)) (featuresOf x idx)
    exact ⟨r, hr'⟩
  choose err herr using hfin
  have herrors : v.map (fun idx => Da.execute env (autoencoderAfter env lr hr T idx) (featuresOf x idx))
      = v.map fun idx => .fin (err idx) := List.map_congr_left fun idx _ => herr idx
  have hr1 : err v[k] = r1 := by
    have := herr v[k]
    rw [e1] at this
    exact (Num.fin.inj this).symm
  unfold kitnetScore
  dsimp only
  rw [herrors, if_neg (by simp)]
  have hfm : ∀ f : Num ℝ → Option ℝ, (∀ e, f (.fin e) = some e) →
      (v.map fun idx => (Num.fin (err idx) : Num ℝ)).filterMap f = v.map err := by
    intro f hf
    rw [List.filterMap_map, ← List.filterMap_eq_map]
    congr 1
    funext idx
    exact hf _
  rw [hfm _ fun _ => rfl]
  obtain ⟨mx', mn', hnorm', c1, c2, c3⟩ := outputAfter_range env hsq hsig lr hr v T hT k
  have hxk : vectorOf (v.map err) k = r1 := by simp [vectorOf, hk, hr1]
  obtain ⟨r2, e2, b2⟩ := da_execute_far env hsq hsig (outputAfter env lr hr v T) mx' mn' hnorm' k
    (by rw [outputAfter_visible]; exact hk) c2 (vectorOf (v.map err)) (r1 - mx' k)
    (by left; rw [hxk]; linarith)
  refine ⟨r2, e2, ?_⟩
  have hr2 : 0 ≤ r2 := by
    obtain ⟨r, hr', hr0⟩ := da_execute_fin env (by rw [hsq]; exact Real.sqrt_nonneg)
      (outputAfter env lr hr v T) (fun hc => hT ((outputAfter_norm env lr hr v T).1 hc))
      (vectorOf (v.map err))
    rw [e2] at hr'
    rw [Num.fin.inj hr']
    exact hr0
  by_cases hsmall : d / (2 * n * w) - 3 ≤ 0
  · exact hsmall.trans hr2
  refine le_trans ?_ b2
  rw [outputAfter_visible]
  have hs : (1 : ℝ) ≤ Real.sqrt v.length := by
    rw [Real.one_le_sqrt]
    exact_mod_cast (by omega : 1 ≤ v.length)
  have hs2 : Real.sqrt v.length ≤ Real.sqrt n := Real.sqrt_le_sqrt (by exact_mod_cast hvlen)
  have hsn : Real.sqrt n * Real.sqrt n = n := Real.mul_self_sqrt (by positivity)
  have hsn1 : (1 : ℝ) ≤ Real.sqrt n := hs.trans hs2
  have hden : mx' k - mn' k + 1 / 10 ^ 16 ≤ 2 := by
    have : (1 : ℝ) / 10 ^ 16 ≤ 1 := by norm_num
    linarith
  have hden0 : 0 < mx' k - mn' k + 1 / 10 ^ 16 := by linarith
  -- `q` is the distance in units of the training range
  obtain ⟨q, hq⟩ : ∃ q, q = d / w := ⟨_, rfl⟩
  have hq1 : d / (w * Real.sqrt n) = q / Real.sqrt n := by rw [hq, div_div]
  have hq2 : d / (2 * n * w) = q / Real.sqrt n / 2 / Real.sqrt n := by
    rw [hq]
    conv_lhs => rw [← hsn]
    field_simp
  rw [hq1] at hb1
  rw [hq2] at hsmall ⊢
  generalize q / Real.sqrt n = a at hb1 hsmall ⊢
  have ha : 6 ≤ a := by
    by_contra hc
    apply hsmall
    have : a / 2 / Real.sqrt n ≤ 3 := by
      rw [div_le_iff₀ (by linarith)]
      linarith
    linarith
  have h1 : a / 2 - 1 ≤ (r1 - mx' k) / (mx' k - mn' k + 1 / 10 ^ 16) := by
    rw [le_div_iff₀ hden0]
    calc (a / 2 - 1) * (mx' k - mn' k + 1 / 10 ^ 16) ≤ (a / 2 - 1) * 2 :=
          mul_le_mul_of_nonneg_left hden (by linarith)
      _ ≤ r1 - mx' k := by linarith
  calc a / 2 / Real.sqrt n - 3 ≤ a / 2 / Real.sqrt n - 2 / Real.sqrt n := by
        have : 2 / Real.sqrt n ≤ 2 := by
          rw [div_le_iff₀ (by linarith)]; linarith
        linarith
    _ = (a / 2 - 2) / Real.sqrt n := by rw [sub_div]
    _ ≤ (a / 2 - 2) / Real.sqrt v.length :=
        div_le_div_of_nonneg_left (by linarith) (by linarith) hs2
    _ ≤ _ := div_le_div_of_nonneg_right (by linarith) (by linarith)

section
variable {β : Type*} {n : ℕ}

/-- **C148.** After the grace periods have begun to train the autoencoders: if the training
values of feature `i` lie in `[lo, hi]`, an instance whose feature `i` is at least `d` outside
has a score of at least `d / (2 n (hi - lo + 1e-16)) - 3`, whatever its other features. -/
theorem C148_kitnet_far {env : KnEnv ℝ} (law : LinkageLaws env) (hsq : env.sqrt = Real.sqrt)
    (hsig : env.sigmoid = logistic) (hn : 2 ≤ n) (maxSize : ℤ) (fmo : Option ℕ) (ad : ℕ)
    (lr hr : ℝ) (hhr : 0 ≤ hr) (h : List (Call (Fin n → ℝ) β))
    (hlen : fmo.getD ad + 1 < (fitted h).length) (had : 0 < ad) (i : Fin n) (lo hi : ℝ)
    (hT : ∀ t ∈ trainingInstances (fmo.getD ad) ad (fitted h), lo ≤ t i ∧ t i ≤ hi)
    (x : Fin n → ℝ) (d : ℝ) (hd0 : 0 ≤ d) (hd : hi + d ≤ x i ∨ x i ≤ lo - d) :
    ∃ r, (KitNet.scorePartial env
      (calls (KitNet.detector env) (KitNet.new n maxSize fmo ad lr hr) h).2 x).out = .ok (.fin r) ∧
      d / (2 * n * (hi - lo + 1 / 10 ^ 16)) - 3 ≤ r := by
  obtain ⟨_, _, _, h2⟩ := kitnet_score_cluster law hn maxSize fmo ad lr hr hhr h x
  obtain ⟨v, _, hv, hout⟩ := h2 (by omega)
  have hne : trainingInstances (fmo.getD ad) ad (fitted h) ≠ [] := by
    intro hc
    have := congrArg List.length hc
    simp [trainingInstances] at this
    omega
  obtain ⟨r, hr1, hr2⟩ := kitnetScore_far env hsq hsig lr hr v hv _ hne i lo hi hT x d hd0 hd
  exact ⟨r, by rw [hout, hr1], hr2⟩

/-- **C148 (no ceiling).** However high a bound, an instance with one feature sufficiently far
away has a higher score, whatever its other features. -/
theorem C148_kitnet_unbounded {env : KnEnv ℝ} (law : LinkageLaws env) (hsq : env.sqrt = Real.sqrt)
    (hsig : env.sigmoid = logistic) (hn : 2 ≤ n) (maxSize : ℤ) (fmo : Option ℕ) (ad : ℕ)
    (lr hr : ℝ) (hhr : 0 ≤ hr) (h : List (Call (Fin n → ℝ) β))
    (hlen : fmo.getD ad + 1 < (fitted h).length) (had : 0 < ad) (i : Fin n) (B : ℝ) :
    ∃ D, ∀ x : Fin n → ℝ, D ≤ |x i| → ∃ r, (KitNet.scorePartial env
      (calls (KitNet.detector env) (KitNet.new n maxSize fmo ad lr hr) h).2 x).out = .ok (.fin r) ∧
      B < r := by
  -- a bound for the training values
  obtain ⟨M, hM⟩ : ∃ M, ∀ t ∈ trainingInstances (fmo.getD ad) ad (fitted h), |t i| ≤ M := by
    generalize trainingInstances (fmo.getD ad) ad (fitted h) = T
    induction T with
    | nil => exact ⟨0, by simp⟩
    | cons t T ih =>
      obtain ⟨M, hM⟩ := ih
      refine ⟨max |t i| M, ?_⟩
      intro u hu
      rcases List.mem_cons.1 hu with rfl | hu
      · exact le_max_left _ _
      · exact (hM u hu).trans (le_max_right _ _)
  have hM0 : 0 ≤ |M| := abs_nonneg M
  have hn0 : (0 : ℝ) < n := by exact_mod_cast (by omega : 0 < n)
  have hw : 0 < 2 * (n : ℝ) * (|M| - -|M| + 1 / 10 ^ 16) := by
    rw [sub_neg_eq_add]; positivity
  refine ⟨|M| + (|B| + 4) * (2 * (n : ℝ) * (|M| - -|M| + 1 / 10 ^ 16)), fun x hx => ?_⟩
  obtain ⟨r, h1, h2⟩ := C148_kitnet_far law hsq hsig hn maxSize fmo ad lr hr hhr h hlen had i
    (-|M|) |M| (fun t ht => abs_le.1 ((hM t ht).trans (le_abs_self M))) x
    ((|B| + 4) * (2 * (n : ℝ) * (|M| - -|M| + 1 / 10 ^ 16))) (mul_nonneg (by positivity) hw.le)
    (by
      rcases le_abs.1 hx with h | h
      · left; exact h
      · right; linarith)
  rw [mul_div_cancel_right₀ _ hw.ne'] at h2
  exact ⟨r, h1, by linarith [le_abs_self B]⟩

/-- **C148 (constant features).** If a feature was constant in training, a change by as little
as `10^-9` brings the score above `10^6 / n - 3`. -/
theorem C148_kitnet_constant {env : KnEnv ℝ} (law : LinkageLaws env) (hsq : env.sqrt = Real.sqrt)
    (hsig : env.sigmoid = logistic) (hn : 2 ≤ n) (maxSize : ℤ) (fmo : Option ℕ) (ad : ℕ)
    (lr hr : ℝ) (hhr : 0 ≤ hr) (h : List (Call (Fin n → ℝ) β))
    (hlen : fmo.getD ad + 1 < (fitted h).length) (had : 0 < ad) (i : Fin n) (c : ℝ)
    (hT : ∀ t ∈ trainingInstances (fmo.getD ad) ad (fitted h), t i = c)
    (x : Fin n → ℝ) (hx : 1 / 10 ^ 9 ≤ |x i - c|) :
    ∃ r, (KitNet.scorePartial env
      (calls (KitNet.detector env) (KitNet.new n maxSize fmo ad lr hr) h).2 x).out = .ok (.fin r) ∧
      10 ^ 6 / n - 3 ≤ r := by
  obtain ⟨r, h1, h2⟩ := C148_kitnet_far law hsq hsig hn maxSize fmo ad lr hr hhr h hlen had i c c
    (fun t ht => by rw [hT t ht]; exact ⟨le_rfl, le_rfl⟩) x (1 / 10 ^ 9) (by positivity)
    (by
      rcases le_abs.1 hx with h | h
      · left; linarith
      · right; linarith)
  refine ⟨r, h1, le_trans ?_ h2⟩
  have hn0 : (0 : ℝ) < n := by exact_mod_cast (by omega : 0 < n)
  have : (1 : ℝ) / 10 ^ 9 / (2 * n * (c - c + 1 / 10 ^ 16)) = (10 ^ 7 / 2) / n := by
    rw [sub_self, zero_add]; field_simp
  rw [this]
  have : (10 : ℝ) ^ 6 / n ≤ (10 ^ 7 / 2) / n := div_le_div_of_nonneg_right (by norm_num) hn0.le
  linarith

end

/-- The hypotheses of C148 are met: two features, one instance for the feature map, two for the
autoencoders, of which the second feature is constant; the instance `(0, 2)` scores at least
`10^5`. -/
example : ∃ r, (KitNet.scorePartial kitnetRealEnv (calls (KitNet.detector kitnetRealEnv)
      (KitNet.new 2 10 (some 0) 5 (1 / 10) (3 / 4))
      [(.fit (fun _ => 0) none : Call (Fin 2 → ℝ) Unit), .fit (fun _ => 1) none,
        .fit ![3, 1] none]).2 ![0, 2]).out = .ok (.fin r) ∧ 10 ^ 5 ≤ r := by
  obtain ⟨r, h1, h2⟩ := C148_kitnet_constant (β := Unit) (chainLinkage_laws kitnetRealEnv rfl) rfl
    rfl le_rfl 10 (some 0) 5 (1 / 10) (3 / 4) (by norm_num)
    [.fit (fun _ => 0) none, .fit (fun _ => 1) none, .fit ![3, 1] none] (by simp [fitted])
    (by norm_num) 1 1 (by simp [fitted, trainingInstances]) ![0, 2] (by norm_num)
  exact ⟨r, h1, le_trans (by norm_num) h2⟩

end Pysad
