import Verif.Props.Calibration
import Verif.Props.Forgetting
import Verif.Props.Inqmad
import Verif.Props.LodaProjections
import Verif.Props.Postprocessors
import Verif.Props.RelativeEntropy

/-! C157: the order in which the instances of one window arrived does not matter. -/

namespace Pysad

open Spec

/-- Streams related by `R` leave a detector with the same score for every instance, whatever
was scored in between. -/
def Spec.OrderFree {σ α β S : Type*} (d : Detector σ α β S) (s0 : σ)
    (R : List α → List α → Prop) : Prop :=
  ∀ cs cs' : List (Call α β), R (fitted cs) (fitted cs') →
    ∀ x, (call d (calls d s0 cs).2 (.score x : Call α β)).1 =
      (call d (calls d s0 cs').2 (.score x)).1

/-- Two streams of equal length in which every block of `W` consecutive instances (the last one
possibly incomplete) holds the same instances, in any order. -/
def Spec.SameWindows {α : Type*} (W : ℕ) (X Y : List α) : Prop :=
  X.length = Y.length ∧ ∀ j, (windowAt W X j).Perm (windowAt W Y j)

theorem out_of_answer {σ α β S : Type*} {d : Detector σ α β S} {s t : σ} {x : α}
    (h : (call d s (.score x : Call α β)).1 = (call d t (.score x)).1) :
    (d.scorePartial s x).out = (d.scorePartial t x).out := by
  simp only [call] at h
  generalize d.scorePartial s x = r at h
  generalize d.scorePartial t x = r' at h
  cases r <;> cases r' <;> simp_all [Res.out]

/-! ### ExactStorm -/

/-- **C157 (ExactStorm).** -/
theorem C157_storm {α β K : Type*} [Field K] [LinearOrder K] (dist : α → α → K) (w : ℕ) (r : K) :
    OrderFree (exactStorm (β := β) dist) (StormState.new w r)
      fun X Y => (lastN w X).dropLast.Perm (lastN w Y).dropLast :=
  fun cs cs' h x => answer_of_out (C50_storm_order dist w r cs cs' h x)

/-! ### RelativeEntropy -/

theorem frequencies_perm {K : Type*} [Field K] [LinearOrder K] [IsStrictOrderedRing K] [FloorRing K]
    (lo step : K) (n : ℕ) {vs ws : List K} (h : vs.Perm ws) :
    frequencies lo step n vs = frequencies lo step n ws := by
  have : binned lo step n vs = binned lo step n ws := by
    funext i
    exact h.countP_eq _
  simp only [frequencies, this]

/-- **C157 (RelativeEntropy).** Only which values were the first `W` and which were the last `W`
matters, not their order. -/
theorem C157_relent {β K : Type*} [Field K] [LinearOrder K] [IsStrictOrderedRing K] [FloorRing K]
    (entropy : List (Num K) → List (Num K) → Num K) (isf : ℤ → Num K) (lo hi : K) (hne : lo ≠ hi)
    (n W : ℕ) (hn : 1 ≤ n) (hW : 1 ≤ W) (s0 : RelEntState K)
    (h0 : RelEnt.new isf lo hi n W = .ok s0) :
    OrderFree (RelEnt.detector (β := β) entropy) s0 fun X Y =>
      X.length = Y.length ∧ (X.take W).Perm (Y.take W) ∧ (lastN W X).Perm (lastN W Y) := by
  rintro cs cs' ⟨hl, hf, hp⟩ x
  refine answer_of_out ?_
  rw [C69_relent_score entropy isf lo hi hne n W hn hW s0 h0 cs x,
    C69_relent_score entropy isf lo hi hne n W hn hW s0 h0 cs' x]
  simp only [Res.out_ok, hl, frequencies_perm _ _ _ hf, frequencies_perm _ _ _ hp]

/-! ### xStream -/

theorem max?_perm {K : Type*} [LinearOrder K] {X Y : List K} (h : X.Perm Y) : X.max? = Y.max? := by
  cases hX : X.max? with
  | none =>
    rw [List.max?_eq_none_iff] at hX
    subst hX
    rw [h.symm.eq_nil]; rfl
  | some a =>
    rw [List.max?_eq_some_iff] at hX
    rw [eq_comm, List.max?_eq_some_iff]
    exact ⟨h.mem_iff.1 hX.1, fun b hb => hX.2 b (h.mem_iff.2 hb)⟩

theorem min?_perm {K : Type*} [LinearOrder K] {X Y : List K} (h : X.Perm Y) : X.min? = Y.min? := by
  cases hX : X.min? with
  | none =>
    rw [List.min?_eq_none_iff] at hX
    subst hX
    rw [h.symm.eq_nil]; rfl
  | some a =>
    rw [List.min?_eq_some_iff] at hX
    rw [eq_comm, List.min?_eq_some_iff]
    exact ⟨h.mem_iff.1 hX.1, fun b hb => hX.2 b (h.mem_iff.2 hb)⟩

section
variable {K : Type*} [Field K] [LinearOrder K] [IsStrictOrderedRing K] {k : ℕ}

theorem windowAt_map {α γ : Type*} (f : α → γ) (W : ℕ) (X : List α) (j : ℕ) :
    windowAt W (X.map f) j = (windowAt W X j).map f := by
  simp only [windowAt, List.map_take, List.map_drop]

omit [IsStrictOrderedRing K] in
theorem binWidth_perm {X Y : List (Fin k → K)} (h : X.Perm Y) : binWidth X = binWidth Y := by
  funext f
  simp only [binWidth, max?_perm (h.map fun x => x f), min?_perm (h.map fun x => x f)]

omit [IsStrictOrderedRing K] in
theorem widthAt_perm {W : ℕ} {X Y : List (Fin k → K)} (h : SameWindows W X Y) (j : ℕ) :
    widthAt W X j = widthAt W Y j := by
  cases j with
  | zero => rfl
  | succ j => exact binWidth_perm (h.2 j)

theorem comparedWindow_perm {α : Type*} {W : ℕ} {X Y : List α} (h : SameWindows W X Y) :
    (comparedWindow W X).Perm (comparedWindow W Y) := by
  unfold comparedWindow
  rw [h.1]
  split
  · have := h.2 0
    simp only [windowAt, Nat.mul_zero, List.drop_zero] at this
    rwa [List.take_of_length_le (by rw [h.1]; omega), List.take_of_length_le (by omega)] at this
  · exact h.2 _

omit [IsStrictOrderedRing K] in
theorem chainScore_perm [FloorRing K] (log2 : K → K) {W : ℕ} (fs : List (Fin k)) (r : Fin k → K)
    {X Y : List (Fin k → K)} (h : SameWindows W X Y) (x : Fin k → K) :
    chainScore log2 W fs r X x = chainScore log2 W fs r Y x := by
  have : ∀ d, foundCount W fs r X x d = foundCount W fs r Y x d := by
    intro d
    simp only [foundCount, comparedWidth, currentWidth, h.1, widthAt_perm h, binCount]
    exact (comparedWindow_perm h).countP_eq _
  simp only [chainScore, this]

/-- **C157 (xStream).** -/
theorem C157_xstream {β : Type*} [FloorRing K] (mmh3 : String → ℕ → ℕ) (log2 : K → K)
    (p : StreamhashState K) (W : ℕ) (hW : 1 ≤ W) (draws : List (XsDraw K k)) (hd : draws ≠ [])
    (hfs : ∀ draw ∈ draws, draw.fs ≠ []) :
    OrderFree (XStream.detector (β := β) mmh3 log2) (XStream.new p W draws) (SameWindows W) := by
  intro cs cs' h x
  rw [C77_xstream_score mmh3 log2 p W hW draws hd hfs cs x,
    C77_xstream_score mmh3 log2 p W hW draws hd hfs cs' x]
  have hi : SameWindows W (XStream.images mmh3 p cs : List (Fin k → K)) (XStream.images mmh3 p cs') := by
    refine ⟨by simp [XStream.images, h.1], fun j => ?_⟩
    simp only [XStream.images, windowAt_map]
    exact (h.2 j).map _
  simp only [chainScore_perm log2 _ _ hi]

end

/-- Windows of two: `1 2 | 3 5 | 7` and `2 1 | 5 3 | 7`. -/
example : SameWindows 2 ([1, 2, 3, 5, 7] : List ℕ) [2, 1, 5, 3, 7] := by
  refine ⟨rfl, fun j => ?_⟩
  match j with
  | 0 => exact List.Perm.swap _ _ _
  | 1 => exact List.Perm.swap _ _ _
  | 2 => exact List.Perm.refl _
  | j + 3 =>
    unfold windowAt
    rw [List.drop_eq_nil_of_le (by simp; omega), List.drop_eq_nil_of_le (by simp; omega)]

/-! ### Calibrators and running statistics -/

/-- **C157 (conformal calibration).** Calibrators fitted on scores of which the same are retained,
in any order, give every score the same probability. -/
theorem C157_conformal {α : Type*} [LinearOrder α] {K : Type*} [Field K] [LinearOrder K]
    [IsStrictOrderedRing K] (windowed : Bool) (w : ℕ) (xs ys : List α)
    (h : (retained windowed w xs).Perm (retained windowed w ys)) (hne : retained windowed w xs ≠ []) :
    ∃ s t, (Conformal.postprocessor K).fit (Conformal.new windowed w) xs = .ok () s ∧
      (Conformal.postprocessor K).fit (Conformal.new windowed w) ys = .ok () t ∧
      ∀ y, ((Conformal.postprocessor K).transformPartial s y).out =
        ((Conformal.postprocessor K).transformPartial t y).out := by
  obtain ⟨s, h1, h2⟩ := C37_conformal (K := K) windowed w xs hne
  obtain ⟨t, h3, h4⟩ := C37_conformal (K := K) windowed w ys
    (by intro h0; rw [h0] at h; exact hne h.eq_nil)
  refine ⟨s, t, h1, h3, fun y => ?_⟩
  rw [h2, h4]
  simp only [Res.out_ok, tailFraction, h.countP_eq, h.length_eq]

/-- **C157 (running z-score).** The same for `RunningZScorePostprocessor`. -/
theorem C157_running_zscore (w : ℕ) (hw : 1 ≤ w) (xs ys : List ℝ) (hne : xs ≠ [])
    (h : (lastN w xs).Perm (lastN w ys)) :
    ∃ s t, (zscoreRunning w).fit (zscoreRunning.init w) xs = .ok () s ∧
      (zscoreRunning w).fit (zscoreRunning.init w) ys = .ok () t ∧
      ∀ y, ((zscoreRunning w).transformPartial s y).out = ((zscoreRunning w).transformPartial t y).out := by
  have hne' : ys ≠ [] := by
    rintro rfl
    have h0 : lastN w ([] : List ℝ) = [] := by simp [lastN]
    rw [h0] at h
    exact lastN_ne_nil hw hne h.eq_nil
  obtain ⟨s, -, h1, -⟩ := C36_transform w hw xs hne 0
  obtain ⟨t, -, h3, -⟩ := C36_transform w hw ys hne' 0
  refine ⟨s, t, h1, h3, fun y => ?_⟩
  obtain ⟨s1, s', g1, g2⟩ := C36_transform w hw xs hne y
  obtain ⟨t1, t', g3, g4⟩ := C36_transform w hw ys hne' y
  rw [h1] at g1
  rw [h3] at g3
  cases g1
  cases g3
  rw [g2, g4, Multiset.coe_eq_coe.2 h]
  rfl

/-! ### RSHash, LODA and Inqmad -/

/-- **C157 (full statement for RSHash, false).** The order of the instances before the last one
does not matter. -/
def C157_rshash_statement : Prop :=
  ∀ (dim : ℕ) (comps : List (RsComponent ℝ dim)), comps ≠ [] → ∀ (sp : ℕ) (decay : ℝ), 0 < decay →
    ∀ nh : ℕ, 1 ≤ nh → OrderFree (RsHash.detector (β := Unit) realPow2 Real.log)
      (RsHash.new comps sp decay nh) fun X Y => ∃ (A B : List (Fin dim → ℝ)) (x : Fin dim → ℝ), X = A ++ [x] ∧ Y = B ++ [x] ∧ A.Perm B

/-- **C157 is false of RSHash**, whose counts fade. -/
theorem C157_rshash_refuted : ¬ C157_rshash_statement := by
  intro h
  let c : RsComponent ℝ 1 := ⟨[(0, 0)], 1⟩
  let x : Fin 1 → ℝ := fun _ => 0
  let z : Fin 1 → ℝ := fun _ => 5
  have key := h 1 [c] (by simp) 1 1 one_pos 1 le_rfl
    [.fit x none, .fit z none, .fit x none] [.fit z none, .fit x none, .fit x none]
    ⟨[x, z], [z, x], x, rfl, rfl, List.Perm.swap _ _ _⟩ x
  have sc : ∀ a b, (call (RsHash.detector (β := Unit) realPow2 Real.log)
      (calls (RsHash.detector (β := Unit) realPow2 Real.log) (RsHash.new [c] 1 1 1)
        [.fit a none, .fit b none, .fit x none]).2 (.score x)).1 =
      .value (some (rsScore realPow2 Real.log 1 [c] [a, b] x)) := by
    intro a b
    have := C72_rshash_score (β := Unit) [c] (by simp) 1 1 1 le_rfl
      [.fit a none, .fit b none, .fit x none] [a, b] x x rfl
    simp only at this
    simp only [call, this]
  rw [sc, sc] at key
  have c1 : SameCell c x x := fun p _ => rfl
  have c2 : ¬ SameCell c z x := by
    intro hs
    have := hs (0, 0) (by simp [c])
    norm_num [z, x, c] at this
  have c0 : decayedCount realPow2 1 c [] x = 0 := by simp [decayedCount]
  simp only [Answer.value.injEq, Option.some.injEq, rsScore, List.map_cons, List.map_nil,
    List.sum_cons, List.sum_nil, List.length_cons, List.length_nil, decayedCount_cons,
    if_pos c1, if_neg c2, c0] at key
  norm_num at key
  have := Real.log_lt_log (x := 5 / 4) (y := 3 / 2) (by norm_num) (by norm_num)
  linarith

/-- **C157 (full statement for LODA, false).** The order of the fitted instances does not
matter. -/
def C157_loda_statement : Prop :=
  ∀ (rng : LodaRng Unit ℝ), RandnShape rng → ∀ nBins nCuts d, 1 ≤ nBins → 1 ≤ nCuts →
    OrderFree (Loda.detector (β := Unit) rng npLog) (Loda.new () nBins nCuts) fun X Y =>
      (∀ x ∈ X, x.length = d) ∧ X.Perm Y

/-- **C157 is false of LODA**, which only keeps the last instance. -/
theorem C157_loda_refuted : ¬ C157_loda_statement := by
  intro h
  have key := h (onesRng ℝ) onesRng_shape 2 1 1 (by norm_num) (by norm_num)
    ([.fit [1] none] ++ [.fit [0] none]) ([.fit [0] none] ++ [.fit [1] none])
    (by simp only [List.cons_append, List.nil_append, fitted]
        exact ⟨by simp, List.Perm.swap _ _ _⟩) [0]
  have h1 := loda_score_last (β := Unit) (onesRng ℝ) onesRng_shape 2 1 (by norm_num) (by norm_num) ()
    [.fit [1] none] [0] none (by simp [fitted])
  obtain ⟨s, arr, e0, hb, hcc, e1, e2, e3⟩ := loda_last (β := Unit) (onesRng ℝ) onesRng_shape npLog 2 1
    (by norm_num) () [.fit [0] none] [1] none (by simp [fitted])
  have h2 := loda_score_of (β := Unit) (onesRng ℝ) 2 1 1 (by norm_num) (by norm_num) s hb hcc arr e1
    (fun c hc => ⟨_, e3 c hc⟩) [0] rfl
  obtain ⟨arr', f1, -, -, kept, f2, f3⟩ := C99_loda_projections_partial (β := Unit) (onesRng ℝ)
    onesRng_shape (fun _ _ => List.Perm.refl _) npLog () 2 1 1 (by norm_num)
    ([.fit [0] none] ++ [.fit [1] none]) (by simp [fitted]) (by simp [fitted])
  have hk : ∀ t i, 0 ∈ kept t i := by
    intro t i
    obtain ⟨g1, g2⟩ := f2 t i
    obtain ⟨a, ha⟩ := Finset.card_pos.1 (show 0 < (kept t i).card by rw [g2]; decide)
    have := Finset.mem_range.1 (g1 ha)
    obtain rfl : a = 0 := by omega
    exact ha
  have hm : arr.map (fun c => -Real.log (lodaMass 2 [0] c)) = [-Real.log (lodaEmpty 2)] := by
    rw [e0, e1] at f1
    obtain rfl : arr = arr' := by simpa using f1
    match arr, e2 with
    | [c], _ =>
      obtain ⟨hl, -, hlim⟩ := e3 c (by simp)
      have hp := f3 0 c [1] (by simp) (by simp [onesRng]) 0 (by norm_num)
      obtain ⟨pr, hi, li⟩ := c
      match pr, hl with
      | [a], _ =>
        have ha : a = 1 := by simpa [hk] using hp
        subst ha
        simp only at hlim
        subst hlim
        norm_num [lodaMass, Loda.searchLeft, List.range_succ]
  rw [hm, ← e0] at h2
  have h3 : ((Loda.detector (β := Unit) (onesRng ℝ) npLog).scorePartial
      (calls (Loda.detector (onesRng ℝ) npLog) (Loda.new () 2 1)
        ([.fit [1] none] ++ [.fit [0] none])).2 [0]).out =
      ((Loda.detector (β := Unit) (onesRng ℝ) npLog).scorePartial
      (calls (Loda.detector (onesRng ℝ) npLog) (Loda.new () 2 1)
        ([.fit [0] none] ++ [.fit [1] none])).2 [0]).out := out_of_answer key
  rw [h1, h2] at h3
  have hlog := Real.log_lt_log (lodaEmpty_pos 2) (lodaEmpty_lt_full 2)
  norm_num at h3
  linarith

/-- **C157 (LODA, what holds).** The order of the instances before the last one does not matter. -/
theorem C157_loda_partial {G β K : Type*} [Field K] [LinearOrder K] [IsStrictOrderedRing K]
    (rng : LodaRng G K) (hr : RandnShape rng) (log : K → Num K) (nBins nCuts d : ℕ) (hn : 1 ≤ nBins)
    (g : G) (X Y : List (List K)) (h : X.Perm Y) (hX : ∀ x ∈ X, x.length = d) (z : List K)
    (hz : z.length = d) :
    (calls (Loda.detector (β := β) rng log) (Loda.new g nBins nCuts)
      ((X ++ [z]).map fun x => .fit x none)).2 =
    (calls (Loda.detector (β := β) rng log) (Loda.new g nBins nCuts)
      ((Y ++ [z]).map fun x => .fit x none)).2 :=
  C66_loda_forgets_partial rng hr log nBins nCuts d hn g X Y h.length_eq hX
    (fun x hx => hX x (h.mem_iff.2 hx)) z hz

/-- **C157 (full statement for Inqmad, false).** -/
def C157_inqmad_statement : Prop :=
  ∀ (n d b : ℕ) (weights : Fin n → Fin d → ℝ) (offset : Fin d → ℝ), b ≠ 0 →
    OrderFree (Inqmad.detector (β := Unit) (realInqEnv weights offset)) (Inqmad.new b) List.Perm

/-- **C157 is false of Inqmad**: fit pi/2 and 0, and score 0; fit them in the other order. -/
theorem C157_inqmad_refuted : ¬ C157_inqmad_statement := by
  intro h
  have key := h 1 2 300 (fun _ _ => 1) (fun k => if k = 0 then 0 else Real.pi / 2) (by norm_num)
    [.fit (fun _ => Real.pi / 2) none, .fit (fun _ => 0) none]
    [.fit (fun _ => 0) none, .fit (fun _ => Real.pi / 2) none] (List.Perm.swap _ _ _) (fun _ => 0)
  have h1 := C85_inqmad_scores_partial (β := Unit) inqExample 300 (by norm_num)
    [.fit (fun _ => Real.pi / 2) none, .fit (fun _ => 0) none] (fun _ => 0)
  have h2 := C85_inqmad_scores_partial (β := Unit) inqExample 300 (by norm_num)
    [.fit (fun _ => 0) none, .fit (fun _ => Real.pi / 2) none] (fun _ => 0)
  change (call (Inqmad.detector (β := Unit) inqExample) (calls (Inqmad.detector inqExample) (Inqmad.new 300)
    [.fit (fun _ => Real.pi / 2) none, .fit (fun _ => 0) none]).2 (.score fun _ => 0)).1 =
    (call (Inqmad.detector (β := Unit) inqExample) (calls (Inqmad.detector inqExample) (Inqmad.new 300)
    [.fit (fun _ => 0) none, .fit (fun _ => Real.pi / 2) none]).2 (.score fun _ => 0)).1 at key
  simp only [fittedAtFirstScore, List.nil_append, List.cons_append,
    List.getLast?_cons_cons, List.getLast?_singleton, lastMeasure,
    inqExample_measure, projector, inqExample_feature, List.length_cons,
    List.length_nil] at h1 h2
  simp at h1 h2
  have h3 := out_of_answer key
  rw [show (Inqmad.detector (β := Unit) inqExample).scorePartial = Inqmad.scorePartial inqExample from rfl,
    h1, h2] at h3
  norm_num at h3

end Pysad
