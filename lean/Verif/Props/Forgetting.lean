import Verif.Props.HalfSpaceTrees
import Verif.Props.RsHash
import Verif.Props.SeasonalEsd
import Verif.Props.SimpleModels
import Verif.Props.XStream

/-! C107: old instances stop mattering. -/

namespace Pysad

open Spec

/-- Only the last `n` instances matter: two histories of valid instances, equally many, of which
the last `n` are the same, give every valid instance the same score. -/
def Spec.Forgets {σ α β S : Type*} (d : Detector σ α β S) (s0 : σ) (valid : α → Prop) (n : ℕ) : Prop :=
  ∀ cs cs' : List (Call α β), (∀ x ∈ fitted cs, valid x) → (∀ x ∈ fitted cs', valid x) →
    (fitted cs).length = (fitted cs').length → lastN n (fitted cs) = lastN n (fitted cs') →
    ∀ x, valid x → (call d (calls d s0 cs).2 (.score x : Call α β)).1 =
      (call d (calls d s0 cs').2 (.score x)).1

theorem answer_of_out {σ α β S : Type*} {d : Detector σ α β S} {s t : σ} {x : α}
    (h : (d.scorePartial s x).out = (d.scorePartial t x).out) :
    (call d s (.score x : Call α β)).1 = (call d t (.score x)).1 := by
  simp only [call]
  generalize d.scorePartial s x = r at h
  generalize d.scorePartial t x = r' at h
  cases r <;> cases r' <;> simp_all [Res.out]

theorem drop_of_lastN {α : Type*} {n k : ℕ} {X X' : List α} (hl : X.length = X'.length)
    (h : lastN n X = lastN n X') (hk : X.length ≤ k + n) : X.drop k = X'.drop k := by
  unfold lastN at h
  rw [← hl] at h
  have e : X.length - n + (k - (X.length - n)) = k := by omega
  have h' := congrArg (List.drop (k - (X.length - n))) h
  rw [List.drop_drop, List.drop_drop, e] at h'
  exact h'

/-- **C107.** ExactStorm: only the last `window_size` instances matter. -/
theorem C107_storm_forgets {α β K : Type*} [Field K] [LinearOrder K] (dist : α → α → K) (w : ℕ) (r : K) :
    Forgets (exactStorm (β := β) dist) (StormState.new w r) (fun _ => True) w := by
  intro cs cs' _ _ _ h x _
  apply answer_of_out
  rw [C50_storm_score, C50_storm_score, h]
  rfl

/-- Two histories that differ before the last two instances. -/
example : let d := exactStorm (β := Unit) fun p q : ℚ => |p - q|
    (calls d (StormState.new 2 5) [.fit 1 none, .fit 20 none, .fit 3 none, .score 4]).1.getLast? =
      (calls d (StormState.new 2 5) [.fit 50 none, .score 7, .fit 20 none, .fit 3 none, .score 4]).1.getLast? := by
  decide +kernel

theorem referenceWindow_congr {α : Type*} {w : ℕ} (hw : 1 ≤ w) {X X' : List α}
    (hl : X.length = X'.length) (h : lastN (2 * w - 1) X = lastN (2 * w - 1) X') :
    referenceWindow w X = referenceWindow w X' := by
  unfold referenceWindow
  rw [← hl]
  split
  · have := drop_of_lastN (k := 0) hl h (by omega)
    simpa using this
  · rw [drop_of_lastN hl h]
    have h1 := Nat.div_add_mod X.length w
    have h2 := Nat.mod_lt X.length (show 0 < w by omega)
    have h3 : 1 ≤ X.length / w := by
      rw [Nat.one_le_div_iff (by omega)]; omega
    obtain ⟨q, hq⟩ : ∃ q, X.length / w = q + 1 := ⟨X.length / w - 1, by omega⟩
    rw [hq] at h1 ⊢
    rw [Nat.mul_add, mul_one] at h1
    rw [Nat.add_sub_cancel, mul_comm q w]
    omega

/-- **C107.** HalfSpaceTrees: only the last `2 * window_size - 1` instances matter. -/
theorem C107_hst_forgets {G β K : Type*} [Field K] [LinearOrder K] (randint : G → ℕ → ℕ × G)
    (hr : InRange randint) (mins maxes : List K) (hd : 1 ≤ maxes.length) (w n D : ℕ) (hw : 1 ≤ w)
    (g : G) (s0 : HstState K) (h0 : Hst.new randint mins maxes w n D g = .ok s0) :
    Forgets (Hst.detector K β) s0 (fun x => x.length = maxes.length) (2 * w - 1) := by
  intro cs cs' hX hX' hl h x hx
  apply answer_of_out
  apply C53_hst_order randint hr mins maxes hd w n D hw g s0 h0 cs cs' hX hX' _ x hx
  rw [referenceWindow_congr hw hl h]

/-- **C107.** SeasonalESD and its hybrid variant: only the last `window_size` values matter. -/
theorem C107_sesd_forgets {β K : Type*} [Field K] [LinearOrder K] {hybrid : Bool} {period W m : ℤ}
    {alpha : K} {s0 : SesdState K} (h0 : Sesd.new hybrid period W m alpha = .ok s0) (env : SesdEnv K) :
    Forgets (Sesd.detector (β := β) env) s0 (fun X => oneNumber X ≠ none) W.toNat := by
  intro cs cs' hX hX' hl h x _
  have key : ∀ X : List (NdArray K), (∀ x ∈ X, oneNumber x ≠ none) →
      ∀ n, lastN n (X.filterMap oneNumber) = (lastN n X).filterMap oneNumber := by
    intro X hX n
    have hlen : ∀ Y : List (NdArray K), (∀ x ∈ Y, oneNumber x ≠ none) →
        (Y.filterMap oneNumber).length = Y.length := by
      intro Y hY
      rw [List.length_filterMap_eq_countP, List.countP_eq_length]
      intro a ha
      exact Option.isSome_iff_ne_none.2 (hY a ha)
    have e : X.filterMap oneNumber = (X.take (X.length - n)).filterMap oneNumber ++
        (lastN n X).filterMap oneNumber := by
      rw [← List.filterMap_append]
      unfold lastN
      rw [List.take_append_drop]
    have hd : (X.filterMap oneNumber).length - n = ((X.take (X.length - n)).filterMap oneNumber).length := by
      rw [hlen X hX, hlen _ fun x hx => hX x (List.mem_of_mem_take hx), List.length_take]
      omega
    conv_lhs => unfold lastN
    rw [hd, e, List.drop_left]
  rw [sesd_calls h0 env cs, sesd_calls h0 env cs', key _ hX, key _ hX', h]

section
variable {K : Type*} [Field K] [LinearOrder K] [IsStrictOrderedRing K] [FloorRing K] {k : ℕ}

theorem windowAt_congr {α : Type*} {W n j : ℕ} {X X' : List α} (hl : X.length = X'.length)
    (h : lastN n X = lastN n X') (hk : X.length ≤ W * j + n) : windowAt W X j = windowAt W X' j := by
  unfold windowAt
  rw [drop_of_lastN hl h hk]

theorem chainScore_congr (log2 : K → K) {W : ℕ} (hW : 1 ≤ W) (fs : List (Fin k)) (r : Fin k → K)
    {X X' : List (Fin k → K)} (hl : X.length = X'.length)
    (h : lastN (3 * W - 1) X = lastN (3 * W - 1) X') (x : Fin k → K) :
    chainScore log2 W fs r X x = chainScore log2 W fs r X' x := by
  have h1 := Nat.div_add_mod X.length W
  have h2 := Nat.mod_lt X.length (show 0 < W by omega)
  have hw1 : ∀ q, X.length / W = q + 1 → windowAt W X q = windowAt W X' q := by
    intro q hq
    apply windowAt_congr hl h
    rw [hq, Nat.mul_add, mul_one] at h1
    omega
  have hw2 : ∀ q, X.length / W = q + 2 → windowAt W X q = windowAt W X' q := by
    intro q hq
    apply windowAt_congr hl h
    rw [hq, Nat.mul_add] at h1
    omega
  have e1 : comparedWindow W X = comparedWindow W X' := by
    unfold comparedWindow
    rw [← hl]
    split
    · have := drop_of_lastN (k := 0) hl h (by omega)
      simpa using this
    · have h3 : 1 ≤ X.length / W := by
        rw [Nat.one_le_div_iff (by omega)]; omega
      exact hw1 _ (by omega)
  have e2 : comparedWidth W X = comparedWidth W X' := by
    unfold comparedWidth
    rw [← hl]
    match hq : X.length / W with
    | 0 => rfl
    | 1 => rfl
    | q + 2 =>
      simp only [Nat.add_one_sub_one, widthAt, hw2 q hq]
  have e3 : currentWidth W X = currentWidth W X' := by
    unfold currentWidth
    rw [← hl]
    match hq : X.length / W with
    | 0 => rfl
    | q + 1 => simp only [widthAt, hw1 q hq]
  have e4 : ∀ d, foundCount W fs r X x d = foundCount W fs r X' x d := by
    intro d
    unfold foundCount
    rw [e1, e2, e3]
  unfold chainScore
  simp only [e4]

/-- **C107.** xStream: only the last `3 * window_size - 1` instances matter. -/
theorem C107_xstream_forgets {β : Type*} (mmh3 : String → ℕ → ℕ) (log2 : K → K) (p : StreamhashState K)
    (W : ℕ) (hW : 1 ≤ W) (draws : List (XsDraw K k)) (hd : draws ≠ [])
    (hfs : ∀ draw ∈ draws, draw.fs ≠ []) :
    Forgets (XStream.detector (β := β) mmh3 log2) (XStream.new p W draws) (fun _ => True)
      (3 * W - 1) := by
  intro cs cs' _ _ hl h x _
  rw [C77_xstream_score mmh3 log2 p W hW draws hd hfs cs x,
    C77_xstream_score mmh3 log2 p W hW draws hd hfs cs' x]
  congr 4
  apply List.map_congr_left
  intro d _
  apply chainScore_congr log2 hW
  · simpa [XStream.images] using hl
  · unfold XStream.images
    unfold lastN at h ⊢
    rw [List.length_map, List.length_map, ← List.map_drop, ← List.map_drop, h]

end

/-! ### `RSHash` -/

section
variable {β : Type*} {dim : ℕ}

theorem decayedCount_cons (decay : ℝ) (c : RsComponent ℝ dim) (a : Fin dim → ℝ)
    (l : List (Fin dim → ℝ)) (x : Fin dim → ℝ) :
    decayedCount realPow2 decay c (a :: l) x =
      (if SameCell c a x then realPow2 (-(decay * ((l.length : ℝ) + 1))) else 0) +
        decayedCount realPow2 decay c l x := by
  unfold decayedCount
  have hz : (a :: l).zipIdx = (a, 0) :: l.zipIdx.map fun p => (p.1, p.2 + 1) := by
    rw [List.zipIdx_cons, List.zipIdx_succ]
  rw [hz, List.filter_cons, List.filter_map]
  have hm : ∀ m : List ((Fin dim → ℝ) × ℕ), ((m.map fun p : (Fin dim → ℝ) × ℕ => (p.1, p.2 + 1)).map fun p : (Fin dim → ℝ) × ℕ =>
      realPow2 (-(decay * (((a :: l).length : ℝ) - (p.2 : ℝ))))) =
      m.map fun p => realPow2 (-(decay * ((l.length : ℝ) - (p.2 : ℝ)))) := by
    intro m
    rw [List.map_map]
    apply List.map_congr_left
    intro p _
    simp only [Function.comp, List.length_cons, Nat.cast_add, Nat.cast_one]
    congr 3
    ring
  simp only [Function.comp_def]
  by_cases h : SameCell c a x
  · simp only [h, decide_true, if_true]
    rw [List.map_cons, List.sum_cons, hm]
    simp
  · simp only [h, decide_false, if_false, zero_add]
    rw [if_neg (by simp), hm]

/-- What instances before the last ones add to a decayed count. -/
theorem decayedCount_append (decay : ℝ) (hd : 0 < decay) (c : RsComponent ℝ dim)
    (A B : List (Fin dim → ℝ)) (x : Fin dim → ℝ) :
    decayedCount realPow2 decay c B x ≤ decayedCount realPow2 decay c (A ++ B) x ∧
      decayedCount realPow2 decay c (A ++ B) x ≤ decayedCount realPow2 decay c B x +
        realPow2 (-(decay * B.length)) / (realPow2 decay - 1) *
          (1 - realPow2 (-(decay * A.length))) := by
  have hpos : ∀ y, 0 < realPow2 y := fun y => Real.rpow_pos_of_pos (by norm_num) y
  have hadd : ∀ y z, realPow2 (y + z) = realPow2 y * realPow2 z :=
    fun y z => Real.rpow_add (by norm_num : (0 : ℝ) < 2) y z
  have h1 : 0 < realPow2 decay - 1 := by
    have := Real.one_lt_rpow (x := 2) (z := decay) (by norm_num) hd
    linarith
  induction A with
  | nil => simp
  | cons a A ih =>
    rw [List.cons_append, decayedCount_cons]
    have hterm : realPow2 (-(decay * (((A ++ B).length : ℝ) + 1))) =
        realPow2 (-(decay * B.length)) / (realPow2 decay - 1) *
          (realPow2 (-(decay * A.length)) - realPow2 (-(decay * (a :: A).length))) := by
      have e1 : realPow2 (-(decay * A.length)) = realPow2 (-(decay * (a :: A).length)) * realPow2 decay := by
        rw [← hadd]
        congr 1
        simp only [List.length_cons, Nat.cast_add, Nat.cast_one]
        ring
      have e2 : realPow2 (-(decay * (((A ++ B).length : ℝ) + 1))) =
          realPow2 (-(decay * B.length)) * realPow2 (-(decay * (a :: A).length)) := by
        rw [← hadd]
        congr 1
        simp only [List.length_cons, List.length_append, Nat.cast_add, Nat.cast_one]
        ring
      rw [e1, e2]
      field_simp
    have hge : 0 ≤ (if SameCell c a x then realPow2 (-(decay * (((A ++ B).length : ℝ) + 1))) else 0) := by
      split
      · exact (hpos _).le
      · exact le_rfl
    have hle : (if SameCell c a x then realPow2 (-(decay * (((A ++ B).length : ℝ) + 1))) else 0) ≤
        realPow2 (-(decay * (((A ++ B).length : ℝ) + 1))) := by
      split
      · exact le_rfl
      · exact (hpos _).le
    replace hle := hle.trans hterm.le
    constructor
    · linarith [ih.1]
    · have := ih.2
      have e : realPow2 (-(decay * B.length)) / (realPow2 decay - 1) *
          (1 - realPow2 (-(decay * (a :: A).length))) =
          realPow2 (-(decay * B.length)) / (realPow2 decay - 1) *
            (realPow2 (-(decay * A.length)) - realPow2 (-(decay * (a :: A).length))) +
          realPow2 (-(decay * B.length)) / (realPow2 decay - 1) *
            (1 - realPow2 (-(decay * A.length))) := by ring
      linarith

theorem log_one_add_sub_le {a b e : ℝ} (ha : 0 ≤ a) (hab : a ≤ b) (hb : b ≤ a + e) :
    Real.log (1 + a) ≤ Real.log (1 + b) ∧ Real.log (1 + b) ≤ Real.log (1 + a) + e := by
  refine ⟨Real.log_le_log (by linarith) (by linarith), ?_⟩
  have h0 : 0 < 1 + a := by linarith
  have h1 : Real.log ((1 + b) / (1 + a)) ≤ (1 + b) / (1 + a) - 1 :=
    Real.log_le_sub_one_of_pos (div_pos (by linarith) h0)
  rw [Real.log_div (by linarith) h0.ne'] at h1
  have h2 : (1 + b) / (1 + a) - 1 ≤ e := by
    rw [div_sub_one h0.ne', div_le_iff₀ h0]
    nlinarith
  linarith

/-- The least and greatest score of an instance fitted after `B`, whatever came before. -/
theorem rsScore_append (decay : ℝ) (hd : 0 < decay) (comps : List (RsComponent ℝ dim))
    (hm : comps ≠ []) (A B : List (Fin dim → ℝ)) (x : Fin dim → ℝ) :
    rsScore realPow2 Real.log decay comps B x ≤ rsScore realPow2 Real.log decay comps (A ++ B) x ∧
      rsScore realPow2 Real.log decay comps (A ++ B) x ≤ rsScore realPow2 Real.log decay comps B x +
        realPow2 (-(decay * B.length)) / (realPow2 decay - 1) := by
  have h1 : 0 < realPow2 decay - 1 := by
    have := Real.one_lt_rpow (x := 2) (z := decay) (by norm_num) hd
    linarith
  set e := realPow2 (-(decay * B.length)) / (realPow2 decay - 1) with he
  have he0 : 0 ≤ e := div_nonneg (Real.rpow_pos_of_pos (by norm_num) _).le h1.le
  have hlen : (0 : ℝ) < (comps.length : ℝ) := Nat.cast_pos.2 (List.length_pos_iff.2 hm)
  have key : ∀ c : RsComponent ℝ dim,
      Real.log (1 + decayedCount realPow2 decay c B x) ≤
        Real.log (1 + decayedCount realPow2 decay c (A ++ B) x) ∧
      Real.log (1 + decayedCount realPow2 decay c (A ++ B) x) ≤
        Real.log (1 + decayedCount realPow2 decay c B x) + e := by
    intro c
    obtain ⟨g1, g2⟩ := decayedCount_append decay hd c A B x
    refine log_one_add_sub_le ?_ g1 (g2.trans ?_)
    · unfold decayedCount
      apply List.sum_nonneg
      intro a ha
      obtain ⟨p, -, rfl⟩ := List.mem_map.1 ha
      exact (Real.rpow_pos_of_pos (by norm_num) _).le
    · have : 0 < realPow2 (-(decay * A.length)) := Real.rpow_pos_of_pos (by norm_num) _
      nlinarith
  unfold rsScore
  constructor
  · apply div_le_div_of_nonneg_right _ hlen.le
    exact List.sum_le_sum fun c _ => (key c).1
  · rw [div_le_iff₀ hlen, add_mul, div_mul_cancel₀ _ hlen.ne']
    have hsum : ((comps.map fun c => Real.log (1 + decayedCount realPow2 decay c B x) + e)).sum =
        (comps.map fun c => Real.log (1 + decayedCount realPow2 decay c B x)).sum +
          e * (comps.length : ℝ) := by
      rw [List.sum_map_add]
      simp [mul_comm]
    rw [← hsum]
    exact List.sum_le_sum fun c _ => (key c).2

end

/-- **C107 (full statement for RSHash, false).** For every object there is a number of instances
such that only so many matter. -/
def C107_rshash_statement : Prop :=
  ∀ (dim : ℕ) (comps : List (RsComponent ℝ dim)), comps ≠ [] → ∀ (sp : ℕ) (decay : ℝ), 0 < decay →
    ∀ nh : ℕ, 1 ≤ nh → ∃ n, Forgets (RsHash.detector (β := Unit) realPow2 Real.log)
      (RsHash.new comps sp decay nh) (fun _ => True) n

/-- **C107 is false of RSHash**: an instance in the same cell leaves a trace for ever. -/
theorem C107_rshash_refuted : ¬ C107_rshash_statement := by
  intro h
  let c : RsComponent ℝ 1 := ⟨[(0, 0)], 1⟩
  obtain ⟨n, hn⟩ := h 1 [c] (by simp) 1 1 one_pos 1 le_rfl
  let x : Fin 1 → ℝ := fun _ => 0
  let z : Fin 1 → ℝ := fun _ => 5
  let B : List (Fin 1 → ℝ) := List.replicate n x
  let hist (a : Fin 1 → ℝ) : List (Call (Fin 1 → ℝ) Unit) := ((a :: B) ++ [x]).map fun v => .fit v none
  have hf : ∀ l : List (Fin 1 → ℝ), fitted (l.map fun v => (.fit v none : Call _ Unit)) = l := by
    intro l
    induction l with
    | nil => rfl
    | cons a l ih => rw [List.map_cons, fitted, ih]
  have hfit : ∀ a, fitted (hist a) = (a :: B) ++ [x] := fun a => hf _
  have key := hn (hist x) (hist z) (fun _ _ => trivial) (fun _ _ => trivial)
    (by rw [hfit, hfit]; simp)
    (by rw [hfit, hfit, List.cons_append, List.cons_append]; 
        have hlen : ∀ a : Fin 1 → ℝ, (a :: (B ++ [x])).length - n = 2 := by
          intro a; simp [B]; omega
        simp only [lastN, hlen]; rfl) x trivial
  have sc : ∀ a, (call (RsHash.detector (β := Unit) realPow2 Real.log)
      (calls (RsHash.detector realPow2 Real.log) (RsHash.new [c] 1 1 1) (hist a)).2 (.score x)).1 =
      .value (some (rsScore realPow2 Real.log 1 [c] (a :: B) x)) := by
    intro a
    have := C72_rshash_score [c] (by simp) 1 1 1 le_rfl (hist a) (a :: B) x x (hfit a)
    simp only at this
    simp only [call, this]
  rw [sc, sc] at key
  simp only [Answer.value.injEq, Option.some.injEq, rsScore, List.map_cons, List.map_nil,
    List.sum_cons, List.sum_nil, List.length_cons, List.length_nil, decayedCount_cons] at key
  have c1 : SameCell c x x := fun p _ => rfl
  have c2 : ¬ SameCell c z x := by
    intro hs
    have := hs (0, 0) (by simp [c])
    norm_num [z, x, c] at this
  rw [if_pos c1, if_neg c2] at key
  have hnn : 0 ≤ decayedCount realPow2 1 c B x := by
    unfold decayedCount
    apply List.sum_nonneg
    intro a ha
    obtain ⟨p, -, rfl⟩ := List.mem_map.1 ha
    exact (Real.rpow_pos_of_pos (by norm_num) _).le
  have hp : 0 < realPow2 (-(1 * ((B.length : ℝ) + 1))) := Real.rpow_pos_of_pos (by norm_num) _
  have := Real.log_lt_log (x := 1 + (0 + decayedCount realPow2 1 c B x))
    (y := 1 + (realPow2 (-(1 * ((B.length : ℝ) + 1))) + decayedCount realPow2 1 c B x))
    (by linarith) (by linarith)
  simp at key
  simp at this
  linarith

/-- **C107, partial for RSHash: the traces fade exponentially.** Two histories, of any lengths,
that end with the same `n + 1` instances give scores that differ by at most
`2 ^ (-decay * n) / (2 ^ decay - 1)`. -/
theorem C107_rshash_fading_partial {β : Type*} {dim : ℕ} (comps : List (RsComponent ℝ dim))
    (hm : comps ≠ []) (sp : ℕ) (decay : ℝ) (hd : 0 < decay) (nh : ℕ) (hnh : 1 ≤ nh)
    (cs cs' : List (Call (Fin dim → ℝ) β)) (A A' B : List (Fin dim → ℝ)) (x z : Fin dim → ℝ)
    (hc : fitted cs = A ++ B ++ [x]) (hc' : fitted cs' = A' ++ B ++ [x]) :
    let d := RsHash.detector (β := β) realPow2 Real.log
    let s0 := RsHash.new comps sp decay nh
    ∃ v v', (d.scorePartial (calls d s0 cs).2 z).out = .ok (some v) ∧
      (d.scorePartial (calls d s0 cs').2 z).out = .ok (some v') ∧
      |v - v'| ≤ realPow2 (-(decay * B.length)) / (realPow2 decay - 1) := by
  intro d s0
  refine ⟨_, _, by rw [C72_rshash_score comps hm sp decay nh hnh cs _ x z hc]; rfl,
    by rw [C72_rshash_score comps hm sp decay nh hnh cs' _ x z hc']; rfl, ?_⟩
  obtain ⟨h1, h2⟩ := rsScore_append decay hd comps hm A B x
  obtain ⟨h3, h4⟩ := rsScore_append decay hd comps hm A' B x
  rw [abs_le]
  constructor <;> linarith

end Pysad
