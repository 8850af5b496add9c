import Verif.Model.AlertExample
import Verif.Props.Calibration
import Verif.Props.Examples
import Verif.Props.XStreamInit

/-! Property C189: what the probability calibration example alerts about. -/

namespace Pysad

open Spec Examples

/-! ### Specification -/

/-- The scores the calibrator of the script remembers when instance `i` is judged: the last 300, that
of instance `i` included. -/
def Spec.recentScores {K : Type*} (scores : List K) (i : ℕ) : List K := lastN 300 (scores.take (i + 1))

/-- Instance `i` has more than 95 percent of the recent scores above its own. -/
def Spec.LowScore {K : Type*} [Field K] [LinearOrder K] (scores : List K) (i : ℕ) : Prop :=
  ∃ v, scores[i]? = some v ∧ 95 / 100 < tailFraction K (recentScores scores i) v

/-- Instance `i` has less than 5 percent of the recent scores above its own. -/
def Spec.HighScore {K : Type*} [Field K] [LinearOrder K] (scores : List K) (i : ℕ) : Prop :=
  ∃ v, scores[i]? = some v ∧ tailFraction K (recentScores scores i) v < 5 / 100

namespace AlertExample

section
variable {σ α β Y K : Type*} [Field K] [LinearOrder K]

instance (scores : List K) (i : ℕ) : Decidable (LowScore scores i) :=
  match h : scores[i]? with
  | none => isFalse (by rintro ⟨v, hv, _⟩; rw [h] at hv; cases hv)
  | some v => decidable_of_iff (95 / 100 < tailFraction K (recentScores scores i) v)
      ⟨fun hv => ⟨v, h, hv⟩, by rintro ⟨w, hw, hv⟩; rw [h] at hw; cases hw; exact hv⟩

variable [IsStrictOrderedRing K]

omit [IsStrictOrderedRing K] in
theorem lowScore_prefix (zs ys : List K) (z : K) :
    LowScore (zs ++ z :: ys) zs.length ↔
      95 / 100 < tailFraction K (lastN 300 (zs ++ [z])) z := by
  have h1 : (zs ++ z :: ys)[zs.length]? = some z := by simp
  have h2 : recentScores (zs ++ z :: ys) zs.length = lastN 300 (zs ++ [z]) := by
    unfold recentScores
    congr 1
    rw [List.take_append]
    simp
  unfold LowScore
  rw [h1, h2]
  constructor
  · rintro ⟨v, hv, h⟩; cases hv; exact h
  · intro h; exact ⟨z, rfl, h⟩

theorem round (d : Detector σ α β (Num K)) (s s1 : σ) (x : α) (y : Y) (zs : List K) (z : K)
    (h : d.fitScorePartial s x none = .ok (.fin z) s1) (P : List ℕ) :
    alertRound d ⟨s, .windowed ((Window.new 300).updates zs), zs.length, P⟩ (x, y) =
      .ok () ⟨s1, .windowed ((Window.new 300).updates (zs ++ [z])), (zs ++ [z]).length,
        P ++ if 95 / 100 < tailFraction K (lastN 300 (zs ++ [z])) z then [zs.length] else []⟩ := by
  have hw : ((Window.new 300).updates zs).update z = (Window.new 300).updates (zs ++ [z]) := by
    simp [Window.updates]
  have hne : (lastN 300 (zs ++ [z])).length ≠ 0 := by
    rw [lastN_length]; simp
  have hK : ((lastN 300 (zs ++ [z])).length : K) ≠ 0 := by exact_mod_cast hne
  have hf : (Conformal.postprocessor K).fitTransform (.windowed ((Window.new 300).updates zs)) [z] =
      .ok [.fin (tailFraction K (lastN 300 (zs ++ [z])) z)]
        (.windowed ((Window.new 300).updates (zs ++ [z]))) := by
    unfold Postprocessor.fitTransform
    rw [iterate_none, Gen.forEach_ofList]
    simp only [pairs, List.map_cons, List.map_nil, inOrder, Postprocessor.fitTransformPartial,
      Conformal.postprocessor, Conformal.fitPartial, Conformal.transformPartial, Res.bind_ok, hw,
      Conformal.contents, C01_window_last, npDiv, if_neg hK, tailFraction,
      List.countP_eq_length_filter]
  unfold alertRound
  simp only [h, Res.mapState_ok, Res.bind_ok, Num.finite?, hf, aboveThreshold, Res.ofExcept,
    List.length_append, List.length_singleton]
  by_cases hc : 95 / 100 < tailFraction K (lastN 300 (zs ++ [z])) z
  · simp [hc]
  · simp [hc]

theorem loop (d : Detector σ α β (Num K)) (ps : List (α × Y)) (s s' : σ) (zs scores : List K)
    (P : List ℕ) (h : inOrder (fitAndScore d) s (ps.map Prod.fst) = .ok (scores.map .fin) s') :
    ∃ us c n, inOrder (alertRound d) ⟨s, .windowed ((Window.new 300).updates zs), zs.length, P⟩ ps =
      .ok us ⟨s', c, n, P ++ (List.range' zs.length scores.length).filter
        fun i => decide (LowScore (zs ++ scores) i)⟩ := by
  induction ps generalizing s zs scores P with
  | nil =>
    simp only [List.map_nil, inOrder] at h
    injection h with h1 h2
    have : scores = [] := by simpa using h1.symm
    subst this h2
    exact ⟨_, _, _, by simp [inOrder]; exact ⟨rfl, rfl, rfl⟩⟩
  | cons q ps ih =>
    obtain ⟨x, y⟩ := q
    simp only [List.map_cons, inOrder, fitAndScore] at h
    cases h1 : d.fitScorePartial s x none with
    | err e s1 => rw [h1] at h; cases h
    | ok a s1 =>
      rw [h1] at h
      simp only at h
      cases h2 : inOrder (fitAndScore d) s1 (ps.map Prod.fst) with
      | err e s2 => rw [h2] at h; cases h
      | ok as s2 =>
        rw [h2] at h
        simp only at h
        injection h with h3 h4
        subst h4
        cases scores with
        | nil => simp at h3
        | cons z ys =>
          simp only [List.map_cons, List.cons.injEq] at h3
          obtain ⟨rfl, rfl⟩ := h3
          have hr := round d s s1 x y zs z h1 P
          obtain ⟨us, c, n, hi⟩ := ih s1 (zs ++ [z]) ys
            (P ++ if 95 / 100 < tailFraction K (lastN 300 (zs ++ [z])) z then [zs.length] else []) h2
          refine ⟨() :: us, c, n, ?_⟩
          simp only [inOrder, hr, hi]
          congr 2
          rw [List.append_assoc]
          congr 1
          have hl := lowScore_prefix zs ys z
          rw [List.length_cons, List.range'_succ, List.filter_cons, List.append_assoc,
            List.singleton_append, List.length_append, List.length_singleton]
          by_cases hc : LowScore (zs ++ z :: ys) zs.length
          · rw [if_pos (hl.1 hc), if_pos (by simpa using hc)]; rfl
          · rw [if_neg (fun h => hc (hl.2 h)), if_neg (by simpa using hc)]; rfl

end

end AlertExample

/-! ### Every detector -/

section
variable {σ α β Y K : Type*} [Field K] [LinearOrder K] [IsStrictOrderedRing K]

/-- **C189 (partial).** What the script prints, for every detector whose scores are numbers and every
data set: the alerts are, in order and once each, about the instances with a low score. -/
theorem C189_alerts_partial (d : Detector σ α β (Num K)) (s s' : σ) (g : Gen (α × Y))
    (ps : List (α × Y)) (hg : g.toList = .ok ps) (scores : List K)
    (h : inOrder (fitAndScore d) s (ps.map Prod.fst) = .ok (scores.map .fin) s') :
    ∃ t, alertScript d s g = .ok () t ∧ t.model = s' ∧
      t.printed = (List.range scores.length).filter fun i => decide (LowScore scores i) := by
  obtain ⟨us, c, n, hl⟩ := AlertExample.loop d ps s s' [] scores [] h
  refine ⟨⟨s', c, n, (List.range scores.length).filter fun i => decide (LowScore scores i)⟩, ?_, rfl, rfl⟩
  · unfold alertScript
    rw [Gen.ofList_of_toList hg, Gen.forEach_ofList]
    have hn : (Conformal.new true 300 : ConformalState K) =
        .windowed ((Window.new 300).updates []) := rfl
    rw [hn]
    have hl' := hl
    simp only [List.length_nil] at hl'
    rw [hl', List.nil_append, List.range_eq_range']
    rfl

/-- **C189 (partial).** A low score is not a high one: no alert is about an instance whose score is
exceeded by less than 5 percent (or by no more than 95 percent) of the recent scores. -/
theorem C189_never_high_partial (scores : List K) (i : ℕ) (h : LowScore scores i) :
    ¬ HighScore scores i := by
  obtain ⟨v, h1, h2⟩ := h
  rintro ⟨w, h3, h4⟩
  rw [h1] at h3
  cases h3
  have := h2.trans h4
  norm_num at this

/-- **C189 (partial).** The instance with the greatest score so far is never alerted. -/
theorem C189_greatest_partial (scores : List K) (i : ℕ) (v : K) (hv : scores[i]? = some v)
    (hm : ∀ u ∈ scores.take (i + 1), u ≤ v) : ¬ LowScore scores i := by
  rintro ⟨w, h1, h2⟩
  rw [hv] at h1
  cases h1
  have h0 : (recentScores scores i).countP (fun x => decide (v < x)) = 0 := by
    rw [List.countP_eq_zero]
    intro x hx
    simpa using hm x ((lastN_suffix _ _).subset hx)
  unfold tailFraction at h2
  rw [h0, Nat.cast_zero, zero_div] at h2
  exact absurd h2 (not_lt.2 (by positivity))

/-- **C189 (partial).** The first twenty instances are never alerted. -/
theorem C189_first_partial (scores : List K) (i : ℕ) (hi : i < 20) : ¬ LowScore scores i := by
  rintro ⟨v, h1, h2⟩
  obtain ⟨hlt, hv⟩ := List.getElem?_eq_some_iff.1 h1
  have hlen : (scores.take (i + 1)).length = i + 1 := by
    rw [List.length_take]; omega
  have hr : recentScores scores i = scores.take (i + 1) := lastN_of_le (by omega)
  have hsplit : scores.take (i + 1) = scores.take i ++ [v] := by
    rw [List.take_add_one, h1]; rfl
  have hc : (scores.take (i + 1)).countP (fun x => decide (v < x)) ≤ i := by
    rw [hsplit, List.countP_append]
    simp only [List.countP_singleton, lt_self_iff_false, decide_false, Bool.false_eq_true, if_false,
      add_zero]
    exact List.countP_le_length.trans (by simp)
  unfold tailFraction at h2
  rw [hr, hlen, lt_div_iff₀ (by positivity)] at h2
  have h3 : ((scores.take (i + 1)).countP (fun x => decide (v < x)) : K) ≤ i := by exact_mod_cast hc
  have h4 : (i : K) + 1 ≤ 20 := by exact_mod_cast hi
  push_cast at h2
  linarith

end

/-- Scores that fall: the 21st is low. -/
example : LowScore ((List.range 21).map fun i => (-(i : ℚ))) 20 := by decide +kernel

/-- Alerts on a stream whose scores are its values. -/
example : (alertScript (β := Unit) (Y := Unit) (K := ℚ)
    (⟨fun s _ _ => .ok () s, fun s x => .ok (.fin x) s⟩ : Detector Unit ℚ Unit (Num ℚ)) ()
    (Gen.ofList (((List.range 22).map fun i => ((i + 1 : ℚ), ())) ++ [(100, ()), (0, ())]))).state.printed
    = [23] := by decide +kernel

/-! ### xStream -/

namespace AlertExample

open XStream

theorem foundCount_same {K : Type*} [Field K] [LinearOrder K] [IsStrictOrderedRing K] [FloorRing K]
    {k : ℕ} (W : ℕ) (fs : List (Fin k)) (r : Fin k → K) (n : ℕ) (hn : n < W) (x : Fin k → K) (d : ℕ) :
    foundCount W fs r (List.replicate n x) x d = n := by
  unfold foundCount
  rw [xstream_first_window_widths W _ (by simpa using hn), comparedWindow,
    if_pos (by simpa using hn)]
  unfold binCount
  rw [List.countP_eq_length.2]
  · simp
  · intro a ha
    rw [List.eq_of_mem_replicate ha]
    simp

theorem chainScore_same {k : ℕ} (W : ℕ) (fs : List (Fin k)) (hfs : fs ≠ []) (r : Fin k → ℝ)
    (n : ℕ) (hn : n < W) (x : Fin k → ℝ) :
    chainScore npLog2 W fs r (List.replicate n x) x = -(npLog2 (1 + (n : ℝ)) + 1) := by
  unfold chainScore
  simp only [foundCount_same W fs r n hn x]
  have : ((List.range fs.length).map fun d : ℕ => npLog2 (1 + (n : ℝ)) + ((d : ℝ) + 1)).min? =
      some (npLog2 (1 + (n : ℝ)) + 1) := by
    rw [List.min?_eq_some_iff]
    constructor
    · refine List.mem_map.2 ⟨0, by simpa using List.length_pos_iff.2 hfs, by simp⟩
    · intro b hb
      obtain ⟨d, _, rfl⟩ := List.mem_map.1 hb
      have : (0 : ℝ) ≤ d := by positivity
      linarith
  rw [this]; rfl

/-- The score of the `n`-th of identical instances, while the first window fills. -/
noncomputable def sameScore (n : ℕ) : ℝ := -(npLog2 (1 + (n : ℝ)) + 1)

theorem sameScore_strictAnti : StrictAnti sameScore := by
  intro a b h
  have hab : (a : ℝ) < b := by exact_mod_cast h
  have h1 : npLog2 (1 + (a : ℝ)) < npLog2 (1 + (b : ℝ)) := by
    unfold npLog2
    exact Real.logb_lt_logb (by norm_num) (by positivity) (by linarith)
  unfold sameScore
  linarith

theorem fitScore_same {β : Type*} {k : ℕ} (mmh3 : String → ℕ → ℕ) (p : StreamhashState ℝ) (W : ℕ)
    (hW : 1 ≤ W) (draws : List (XsDraw ℝ k)) (hd : draws ≠ []) (hfs : ∀ draw ∈ draws, draw.fs ≠ [])
    (x : List ℝ) (r : ℕ) (h : List (Call (List ℝ) β)) (m : ℕ) (hm : fitted h = List.replicate m x)
    (hr : m + r < W) :
    ∃ s', inOrder (fitAndScore (detector (β := β) mmh3 npLog2))
      (calls (detector mmh3 npLog2) (new p W draws) h).2 (List.replicate r x) =
      .ok (((List.range' (m + 1) r).map sameScore).map .fin) s' := by
  induction r generalizing h m with
  | zero => exact ⟨_, rfl⟩
  | succ r ih =>
    let c1 : Call (List ℝ) β := .fit x none
    let c2 : Call (List ℝ) β := .score x
    have hf := (C78_xstream_widths mmh3 npLog2 p W hW draws h).2 x none
    have hfit : (detector (β := β) mmh3 npLog2).fitPartial
        (calls (detector mmh3 npLog2) (new p W draws) h).2 x none =
        .ok () (calls (detector mmh3 npLog2) (new p W draws) (h ++ [c1])).2 := by
      rw [calls_snoc]
      simp only [call, c1] at hf ⊢
      cases h1 : (detector (β := β) mmh3 npLog2).fitPartial
        (calls (detector mmh3 npLog2) (new p W draws) h).2 x none with
      | ok u s1 => rfl
      | err e s1 => rw [h1] at hf; cases hf
    have hm1 : fitted (h ++ [c1]) = List.replicate (m + 1) x := by
      rw [fitted_append, hm, List.replicate_succ']; rfl
    have hs := C77_xstream_score mmh3 npLog2 p W hW draws hd hfs (h ++ [c1]) x
    have himg : images mmh3 p (h ++ [c1]) = List.replicate (m + 1) (project (k := k) mmh3 p x) := by
      rw [images, hm1, List.map_replicate]
    have hmean : (draws.map fun d => chainScore npLog2 W d.fs d.randArr (images mmh3 p (h ++ [c1]))
        (project mmh3 p x)).sum / (draws.length : ℝ) = sameScore (m + 1) := by
      rw [himg, List.map_congr_left (g := fun _ => sameScore (m + 1))]
      · have : (draws.length : ℝ) ≠ 0 := by
          exact_mod_cast (List.length_pos_iff.2 hd).ne'
        rw [List.map_const', List.sum_replicate, nsmul_eq_mul]
        field_simp
      · intro d hdm
        exact chainScore_same W d.fs (hfs d hdm) d.randArr (m + 1) (by omega) _
    rw [hmean] at hs
    have hscore : (detector (β := β) mmh3 npLog2).scorePartial
        (calls (detector mmh3 npLog2) (new p W draws) (h ++ [c1])).2 x =
        .ok (.fin (sameScore (m + 1)))
          (calls (detector mmh3 npLog2) (new p W draws) (h ++ [c1] ++ [c2])).2 := by
      rw [calls_snoc _ (h ++ [c1])]
      simp only [call, c2] at hs ⊢
      cases h1 : (detector (β := β) mmh3 npLog2).scorePartial
        (calls (detector mmh3 npLog2) (new p W draws) (h ++ [c1])).2 x with
      | ok u s1 => rw [h1] at hs; simp only [Answer.value.injEq] at hs; rw [hs]
      | err e s1 => rw [h1] at hs; cases hs
    have hm2 : fitted (h ++ [c1] ++ [c2]) = List.replicate (m + 1) x := by
      rw [fitted_append, hm1]; simp [fitted, c2]
    obtain ⟨s', hi⟩ := ih (h ++ [c1] ++ [c2]) (m + 1) hm2 (by omega)
    refine ⟨s', ?_⟩
    have hstep : fitAndScore (detector (β := β) mmh3 npLog2)
        (calls (detector mmh3 npLog2) (new p W draws) h).2 x = .ok (.fin (sameScore (m + 1)))
          (calls (detector mmh3 npLog2) (new p W draws) (h ++ [c1] ++ [c2])).2 := by
      unfold fitAndScore Detector.fitScorePartial
      rw [hfit, Res.bind_ok, hscore]
    rw [List.replicate_succ]
    simp only [inOrder, hstep, hi]
    rw [List.range'_succ]
    rfl

/-- In a falling list of at most 300 scores everything after the first twenty is low. -/
theorem low_of_falling (f : ℕ → ℝ) (hf : StrictAnti f) (n : ℕ) (hn : n ≤ 300) (i : ℕ) (hi : i < n) :
    LowScore ((List.range' 1 n).map f) i ↔ 20 ≤ i := by
  constructor
  · intro h
    by_contra hc
    exact C189_first_partial _ i (by omega) h
  · intro h
    refine ⟨f (1 + i), by simp [hi], ?_⟩
    have hr : recentScores ((List.range' 1 n).map f) i = (List.range' 1 i).map f ++ [f (1 + i)] := by
      unfold recentScores
      rw [lastN_of_le (by rw [List.length_take]; omega), ← List.map_take, List.take_range'_of_length_ge (by omega), List.range'_concat]
      simp
    have hc : ((List.range' 1 i).map f ++ [f (1 + i)]).countP (fun x => decide (f (1 + i) < x)) = i := by
      rw [List.countP_append, List.countP_eq_length.2]
      · simp
      · intro a ha
        obtain ⟨j, hj, rfl⟩ := List.mem_map.1 ha
        rw [List.mem_range'_1] at hj
        simpa using hf hj.2
    unfold tailFraction
    rw [hr, hc]
    simp only [List.length_append, List.length_map, List.length_range', List.length_singleton]
    have h20 : (20 : ℝ) ≤ i := by exact_mod_cast h
    rw [lt_div_iff₀ (by positivity)]
    push_cast
    linarith

end AlertExample

open AlertExample XStream

/-- **C189 (identical instances).** The script itself, with `xStream()`: for every seed, every hash
function and every instance, a data set of `n ≤ 24` copies of the instance makes the script alert
about each copy after the twentieth. -/
theorem C189_identical {G β Y : Type*} (rng : XsRng G ℝ) (hr : InRange rng.randint)
    (mmh3 : String → ℕ → ℕ) (g : G) (x : List ℝ) (y : Y) (n : ℕ) (hn : n ≤ 24) :
    ∃ (s0 : XStreamState ℝ 100) (g' : G) (scores : List ℝ) (s' : XStreamState ℝ 100)
      (t : AlertState (XStreamState ℝ 100) ℝ), constructDefault rng Real.sqrt g = .ok (s0, g') ∧
      inOrder (fitAndScore (detector (β := β) mmh3 npLog2)) s0 (List.replicate n x) =
        .ok (scores.map .fin) s' ∧
      alertScript (detector (β := β) mmh3 npLog2) s0 (Gen.ofList (List.replicate n (x, y))) = .ok () t ∧
      t.printed = (List.range n).filter fun i => decide (20 ≤ i) := by
  obtain ⟨draws, g', h1, h2, h3⟩ := drawChains_spec rng hr 100 (by norm_num) 25 100 g
  have h30 : (1 / 3 : ℝ) ≠ 0 := by norm_num
  have hne : draws ≠ [] := by
    rintro rfl
    simp at h2
  have hfs : ∀ draw ∈ draws, draw.fs ≠ [] := by
    intro d hd h0
    have := (h3 d hd).1
    rw [h0] at this
    simp at this
  obtain ⟨s', hs⟩ := fitScore_same (β := β) mmh3
    ⟨100, Real.sqrt (1 / (1 / 3)) / Real.sqrt ((100 : ℕ) : ℝ), 1 / 3⟩ 25 (by norm_num) draws hne hfs x n
    [] 0 rfl (by omega)
  have hps : (List.replicate n (x, y)).map Prod.fst = List.replicate n x := by
    rw [List.map_replicate]
  obtain ⟨t, ht1, ht2, ht3⟩ := C189_alerts_partial (detector (β := β) mmh3 npLog2) _ s'
    (Gen.ofList (List.replicate n (x, y))) (List.replicate n (x, y)) (Gen.toList_ofList _)
    ((List.range' 1 n).map sameScore) (by rw [hps]; exact hs)
  refine ⟨new ⟨100, Real.sqrt (1 / (1 / 3)) / Real.sqrt ((100 : ℕ) : ℝ), 1 / 3⟩ 25 draws, g',
    (List.range' 1 n).map sameScore, s', t, ?_, hs, ht1, ?_⟩
  · simp only [constructDefault, construct, Streamhash.new, if_neg h30, Except.bind, h1, Except.map]
  · rw [ht3]
    simp only [List.length_map, List.length_range']
    apply List.filter_congr
    intro i hi
    rw [List.mem_range] at hi
    simpa using low_of_falling sameScore sameScore_strictAnti n (by omega) i hi

/-- **C189**, as the script's comment has it: every alert is about an instance whose score is
exceeded by less than 5 percent of the recent scores. -/
def C189_statement : Prop :=
  ∀ (rng : XsRng ℕ ℝ), InRange rng.randint → ∀ (mmh3 : String → ℕ → ℕ) (g : ℕ) (s0 : XStreamState ℝ 100)
    (g' : ℕ), constructDefault rng Real.sqrt g = .ok (s0, g') →
    ∀ (ps : List (List ℝ × Bool)) (scores : List ℝ) (s' : XStreamState ℝ 100),
      inOrder (fitAndScore (detector (β := Bool) mmh3 npLog2)) s0 (ps.map Prod.fst) =
        .ok (scores.map .fin) s' →
      ∀ t, alertScript (detector (β := Bool) mmh3 npLog2) s0 (Gen.ofList ps) = .ok () t →
        ∀ i ∈ t.printed, HighScore scores i

/-- **C189.** The statement is false ... -/
theorem C189_refuted : ¬ C189_statement := by
  intro H
  have hr : InRange (fun (g n : ℕ) => (g % n, g + 1)) := fun g n hn => Nat.mod_lt _ hn
  obtain ⟨s0, g', scores, s', t, h1, h2, h3, h4⟩ := C189_identical (β := Bool)
    (⟨fun g n => (g % n, g + 1), fun g _ => (fun _ => 0, g)⟩ : XsRng ℕ ℝ) hr (fun _ _ => 0) 0 [0] false 21
    (by norm_num)
  have hps : (List.replicate 21 (([0] : List ℝ), false)).map Prod.fst = List.replicate 21 [0] := by
    rw [List.map_replicate]
  have hmem : 20 ∈ t.printed := by rw [h4]; simp
  have hhigh := H _ hr _ 0 s0 g' h1 (List.replicate 21 ([0], false)) scores s' (by rw [hps]; exact h2) t h3
    20 hmem
  obtain ⟨t', ht1, _, ht3⟩ := C189_alerts_partial (detector (β := Bool) (fun _ _ => 0) npLog2) s0 s'
    (Gen.ofList (List.replicate 21 (([0] : List ℝ), false))) _ (Gen.toList_ofList _) scores
    (by rw [hps]; exact h2)
  rw [h3] at ht1
  cases ht1
  rw [ht3, List.mem_filter] at hmem
  exact C189_never_high_partial scores 20 (by simpa using hmem.2) hhigh

/-- **C189.** ... and wrong about every single alert: whatever the data set, an alert of the script is
never about an instance with a high score. -/
theorem C189_every_alert_refuted {G β Y : Type*} (rng : XsRng G ℝ) (_ : InRange rng.randint)
    (mmh3 : String → ℕ → ℕ) (g g' : G) (s0 s' : XStreamState ℝ 100)
    (_ : constructDefault rng Real.sqrt g = .ok (s0, g')) (ps : List (List ℝ × Y)) (scores : List ℝ)
    (h : inOrder (fitAndScore (detector (β := β) mmh3 npLog2)) s0 (ps.map Prod.fst) =
      .ok (scores.map .fin) s') (t : AlertState (XStreamState ℝ 100) ℝ)
    (ht : alertScript (detector (β := β) mmh3 npLog2) s0 (Gen.ofList ps) = .ok () t)
    (i : ℕ) (hi : i ∈ t.printed) : ¬ HighScore scores i := by
  obtain ⟨t', ht1, _, ht3⟩ := C189_alerts_partial (detector (β := β) mmh3 npLog2) s0 s'
    (Gen.ofList ps) _ (Gen.toList_ofList _) scores h
  rw [ht] at ht1
  cases ht1
  rw [ht3, List.mem_filter] at hi
  exact C189_never_high_partial scores i (by simpa using hi.2)

end Pysad
