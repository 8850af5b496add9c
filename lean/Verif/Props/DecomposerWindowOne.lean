import Verif.Props.DecomposerLengths

/-! Property C208 for a trend window of 1. -/

namespace Pysad

open Spec RaggedDecomposer

namespace RaggedDecomposer
variable {K : Type*} [Field K] [DecidableEq K] {d : ℕ}

omit [DecidableEq K] in
theorem sub_self' (z : List K) : sub z z = .ok (List.replicate z.length 0) := by
  unfold sub
  rw [if_pos rfl]
  congr 1
  induction z with
  | nil => rfl
  | cons a z ih => simp [List.replicate_succ]

omit [DecidableEq K] in
theorem trend_single (z : List K) [CharZero K] : trend [z] = .ok (some z) := by
  rw [trend, if_pos (by simp)]
  congr 2
  apply List.ext_getElem
  · simp
  · intro i h1 h2
    simp [npMean, h2]

omit [Field K] [DecidableEq K] in
theorem push_one (W : List (List K)) (hW : W.length ≤ 1) (x : List K) : push 1 W x = [x] := by
  unfold push
  match W, hW with
  | [], _ => rfl
  | [a], _ => rfl

/-- A window of 1: all deviations from the trend are zero. -/
def Flat (s : ℕ) (W : List (List K)) (st : RaggedState K) : Prop :=
  ∃ c : ℕ → K, st.seasonLength = s ∧ st.trendWindow = 1 ∧ st.window = W ∧
    st.seasonal = some (fun _ => List.replicate d 0, c)

omit [DecidableEq K] in
theorem flat_learn [CharZero K] (x : List K) (p : ℕ) (c : ℕ → K) (hx : x.length = d) :
    learn 1 [x] p x (some x) (fun _ => List.replicate d 0, c) =
      .ok (fun _ => List.replicate d 0, Function.update c p (c p + 1)) := by
  have ha : addInPlace (List.replicate d (0 : K)) (List.replicate d 0) = .ok (List.replicate d 0) := by
    unfold addInPlace
    rw [if_pos rfl]
    simp
  unfold learn
  rw [if_pos (by simp)]
  simp only [subTrend, sub_self', hx, ok_bind, ha]
  congr 2
  funext q
  by_cases hq : q = p
  · subst hq; simp
  · simp [Function.update_of_ne hq]

theorem flat_seasonal (p : ℕ) (c : ℕ → K) (y : List K) (hy : y.length = d) :
    subSeasonal (fun _ => List.replicate d 0, c) p y = .ok y := by
  unfold subSeasonal
  split_ifs with h
  · rfl
  · unfold sub
    rw [if_pos (by simp [hy])]
    congr 1
    apply List.ext_getElem
    · simp [hy]
    · intro i h1 h2
      simp

omit [DecidableEq K] in
theorem flat_fit [CharZero K] {s : ℕ} {W : List (List K)} (hW : W.length ≤ 1) {st : RaggedState K}
    (h : Flat (d := d) s W st) {A : FitArg (List K)} {x : List K} (hA : Decomposer.asArray A = x) (hx : x.length = d) :
    Flat (d := d) s [x] (fitPartial st A).state ∧ (fitPartial st A).out = .ok () := by
  obtain ⟨c, h1, h2, rfl, h4⟩ := h
  unfold fitPartial
  simp only [hA, h2, push_one _ hW, trend_single, arrays, h4, Option.getD_some, flat_learn x _ c hx]
  exact ⟨⟨_, h1, rfl, rfl, rfl⟩, rfl⟩

theorem flat_fitTransform [CharZero K] {s : ℕ} {W : List (List K)} (hW : W.length ≤ 1) {st : RaggedState K}
    (h : Flat (d := d) s W st) {x : List K} (hx : x.length = d) :
    Flat (d := d) s [x] (fitTransformPartial st x).state ∧
      (fitTransformPartial st x).out = .ok (List.replicate d 0) := by
  obtain ⟨c, h1, h2, rfl, h4⟩ := h
  unfold fitTransformPartial
  simp only [h2, push_one _ hW, trend_single, arrays, h4, Option.getD_some, flat_learn x _ c hx, subTrend, sub_self',
    hx, ok_bind, flat_seasonal _ _ _ (List.length_replicate (n := d) (a := (0 : K)))]
  exact ⟨⟨_, h1, rfl, rfl, rfl⟩, rfl⟩

theorem transform_state (st : RaggedState K) (x : List K) :
    (transformPartial st x).state = { st with seasonal := some (arrays st x) } := by
  unfold transformPartial
  dsimp only
  split <;> rfl

theorem flat_transform_state {s : ℕ} {W : List (List K)} {st : RaggedState K} (h : Flat (d := d) s W st) (x : List K) :
    Flat (d := d) s W (transformPartial st x).state := by
  rw [transform_state]
  obtain ⟨c, h1, h2, h3, h4⟩ := h
  exact ⟨c, h1, h2, h3, by simp [arrays, h4]⟩

theorem flat_transform [CharZero K] {s : ℕ} {w : List K} (hw : w.length = d) {st : RaggedState K}
    (h : Flat (d := d) s [w] st) {x : List K} (hx : x.length = d) :
    (transformPartial st x).out = .ok (List.zipWith (· - ·) x w) := by
  obtain ⟨c, h1, h2, h3, h4⟩ := h
  have hs : sub x w = .ok (List.zipWith (· - ·) x w) := by
    unfold sub; rw [if_pos (by omega)]
  have hl : (List.zipWith (· - ·) x w).length = d := by simp [hx, hw]
  unfold transformPartial
  simp only [h3, trend_single, arrays, h4, Option.getD_some, subTrend, hs, ok_bind, flat_seasonal _ c _ hl]
  rfl

/-- The state after calls that fit instances of the right length. -/
theorem flat_after [CharZero K] {s : ℕ} (cs : List (TransCall (Fin d → K))) : ∀ {W : List (List K)}, W.length ≤ 1 →
    ∀ {st : RaggedState K}, Flat (d := d) s W st →
      Flat (d := d) s (((transFitted cs).getLast?.map fun x => [List.ofFn x]).getD W)
        (afterTrans (raggedDecomposer K) st (cs.map TransCall.asArrays)) := by
  have key : ∀ (x : Fin d → K) (l : List (Fin d → K)) (W : List (List K)),
      (((x :: l).getLast?.map fun x => [List.ofFn x]).getD W) =
        ((l.getLast?.map fun x => [List.ofFn x]).getD [List.ofFn x]) := by
    intro x l W
    rw [List.getLast?_cons]
    cases l.getLast? <;> rfl
  induction cs with
  | nil => intro W _ st h; exact h
  | cons c cs ih =>
    intro W hW st h
    match c with
    | .fit (.row x) =>
      have := ih (by simp) (flat_fit hW h (A := .row (List.ofFn x)) (x := List.ofFn x) rfl List.length_ofFn).1
      show Flat s (Option.getD (Option.map _ (List.getLast? (x :: transFitted cs))) W) _
      rw [key]
      exact this
    | .fit (.pair x) =>
      have := ih (by simp) (flat_fit hW h (A := .pair (List.ofFn x)) (x := List.ofFn x) rfl List.length_ofFn).1
      show Flat s (Option.getD (Option.map _ (List.getLast? (x :: transFitted cs))) W) _
      rw [key]
      exact this
    | .fitTransform x =>
      have := ih (by simp) (flat_fitTransform hW h (x := List.ofFn x) (by simp)).1
      show Flat s (Option.getD (Option.map _ (List.getLast? (x :: transFitted cs))) W) _
      rw [key]
      exact this
    | .transform x => exact ih hW (flat_transform_state h (List.ofFn x))

/-- The answer depends only on the window. -/
theorem flat_answer [CharZero K] {s : ℕ} {W : List (List K)} (hW : W.length ≤ 1) {st st' : RaggedState K}
    (h : Flat (d := d) s W st) {W' : List (List K)} (hW' : W'.length ≤ 1) (h' : Flat (d := d) s W' st')
    (c : TransCall (Fin d → K)) (hc : transFitted [c] ≠ [] ∨ W = W' ∧ ∃ w, W = [w] ∧ w.length = d) :
    transAnswer (raggedDecomposer K) st c.asArrays = transAnswer (raggedDecomposer K) st' c.asArrays := by
  match c with
  | .fit (.row x) =>
    show (fitPartial st _).out.map _ = (fitPartial st' _).out.map _
    rw [(flat_fit hW h (A := .row (List.ofFn x)) (x := List.ofFn x) rfl List.length_ofFn).2,
      (flat_fit hW' h' (A := .row (List.ofFn x)) (x := List.ofFn x) rfl List.length_ofFn).2]
  | .fit (.pair x) =>
    show (fitPartial st _).out.map _ = (fitPartial st' _).out.map _
    rw [(flat_fit hW h (A := .pair (List.ofFn x)) (x := List.ofFn x) rfl List.length_ofFn).2,
      (flat_fit hW' h' (A := .pair (List.ofFn x)) (x := List.ofFn x) rfl List.length_ofFn).2]
  | .fitTransform x =>
    show (fitTransformPartial st _).out.map _ = (fitTransformPartial st' _).out.map _
    rw [(flat_fitTransform hW h (by simp)).2, (flat_fitTransform hW' h' (by simp)).2]
  | .transform x =>
    obtain ⟨rfl, w, rfl, hw⟩ := hc.resolve_left (by simp [transFitted])
    show (transformPartial st _).out.map _ = (transformPartial st' _).out.map _
    rw [flat_transform hw h (by simp), flat_transform hw h' (by simp)]

/-- The state after a history that fitted something. -/
theorem flat_history [CharZero K] {s : ℕ} (hs : 0 < s) {s0 : RaggedState K}
    (h0 : RaggedDecomposer.new (s : ℤ) (some (1 : ℤ)) = .ok s0) (cs : List (TransCall (Fin d → K)))
    (hX : transFitted cs ≠ []) :
    Flat (d := d) s [List.ofFn ((transFitted cs).getLast hX)]
      (afterTrans (raggedDecomposer K) s0 (cs.map TransCall.asArrays)) := by
  obtain ⟨rfl, -⟩ := new_embed (d := d) hs one_pos (by exact_mod_cast h0)
  have h1 : ∀ c : TransCall (Fin d → K), afterTrans (raggedDecomposer K) (embed (⟨s, 1, [], none, 0⟩ : DecomposerState K d))
      [c.asArrays] = afterTrans (raggedDecomposer K) ⟨s, 1, [], some (fun _ => List.replicate d 0, fun _ => 0), 0⟩
        [c.asArrays] := by
    intro c
    match c with
    | .fit (.row x) => simp [afterTrans, TransCall.asArrays, raggedDecomposer, fitPartial, arrays, embed, Decomposer.asArray]
    | .fit (.pair x) => simp [afterTrans, TransCall.asArrays, raggedDecomposer, fitPartial, arrays, embed, Decomposer.asArray]
    | .fitTransform x => simp [afterTrans, TransCall.asArrays, raggedDecomposer, fitTransformPartial, arrays, embed]
    | .transform x => simp [afterTrans, TransCall.asArrays, raggedDecomposer, transformPartial, arrays, embed]
  match cs, hX with
  | c :: cs, hX =>
    have e : List.map TransCall.asArrays (c :: cs) = [c.asArrays] ++ cs.map TransCall.asArrays := rfl
    rw [e, after_append, h1, ← after_append, ← e]
    have := flat_after (s := s) (c :: cs) (W := []) (by simp)
      (st := ⟨s, 1, [], some (fun _ => List.replicate d 0, fun _ => 0), 0⟩) ⟨_, rfl, rfl, rfl, rfl⟩
    rwa [List.getLast?_eq_some_getLast hX] at this

/-- A wrong fit with a window of 1. -/
theorem flat_wrong [CharZero K] {s : ℕ} {W : List (List K)} (hW : W.length ≤ 1) {st : RaggedState K}
    (h : Flat (d := d) s W st) {c : TransCall (List K)} {z : List K} (hc : transFitted [c] = [z]) (hz : z.length ≠ d)
    (hz1 : z.length ≠ 1) :
    transAnswer (raggedDecomposer K) st c = .error .valueError ∧
      Flat (d := d) s [z] (afterTrans (raggedDecomposer K) st [c]) := by
  obtain ⟨k, h1, h2, rfl, h4⟩ := h
  have hl : ∀ p, learn 1 [z] p z (some z) (fun _ => List.replicate d 0, k) = .error .valueError := by
    intro p
    have ha : addInPlace (List.replicate d (0 : K)) (List.replicate z.length 0) = .error .valueError := by
      unfold addInPlace
      rw [if_neg (by simpa using Ne.symm hz)]
      split
      · rename_i b hb
        have := congrArg List.length hb
        simp at this
        exact absurd this hz1
      · rfl
    unfold learn
    rw [if_pos (by simp)]
    simp only [subTrend, sub_self', ok_bind, ha]
    rfl
  have e1 : ∀ A : FitArg (List K), Decomposer.asArray A = z → fitPartial st A = .err .valueError
      { st with window := [z], seasonal := some (fun _ => List.replicate d 0, k) } := by
    intro A hA
    unfold fitPartial
    simp only [hA, h2, push_one _ hW, trend_single, arrays, h4, Option.getD_some, hl]
  have e2 : fitTransformPartial st z = .err .valueError
      { st with window := [z], seasonal := some (fun _ => List.replicate d 0, k) } := by
    unfold fitTransformPartial
    simp only [h2, push_one _ hW, trend_single, arrays, h4, Option.getD_some, hl]
  have hf : Flat (d := d) s [z] { st with window := [z], seasonal := some (fun _ => List.replicate d 0, k) } :=
    ⟨k, h1, h2, rfl, rfl⟩
  match c, hc with
  | .fit (.row z'), hc =>
    obtain rfl : z' = z := by simpa [transFitted] using hc
    constructor
    · show (fitPartial st _).out.map _ = _
      rw [e1 _ rfl]; rfl
    · show Flat _ _ (fitPartial st _).state
      rw [e1 _ rfl]; exact hf
  | .fit (.pair z'), hc =>
    obtain rfl : z' = z := by simpa [transFitted] using hc
    constructor
    · show (fitPartial st _).out.map _ = _
      rw [e1 _ rfl]; rfl
    · show Flat _ _ (fitPartial st _).state
      rw [e1 _ rfl]; exact hf
  | .fitTransform z', hc =>
    obtain rfl : z' = z := by simpa [transFitted] using hc
    constructor
    · show (fitTransformPartial st _).out.map _ = _
      rw [e2]; rfl
    · show Flat _ _ (fitTransformPartial st _).state
      rw [e2]; exact hf
  | .transform _, hc => simp [transFitted] at hc

omit [DecidableEq K] in
theorem sub_long {u v y : List K} (h : sub u v = .ok y) (hl : 2 ≤ v.length) : y.length = v.length := by
  unfold sub at h
  split_ifs at h with h1
  · cases h; simp [h1]
  · split at h
    · cases h; simp
    · simp at hl
    · cases h

omit [DecidableEq K] in
theorem sub_long' {u v y : List K} (h : sub u v = .ok y) (hl : 2 ≤ u.length) : y.length = u.length := by
  unfold sub at h
  split_ifs at h with h1
  · cases h; simp [h1]
  · split at h
    · simp at hl
    · cases h; simp
    · cases h

theorem transFitted_append {α : Type*} (cs cs' : List (TransCall α)) :
    transFitted (cs ++ cs') = transFitted cs ++ transFitted cs' := by
  induction cs with
  | nil => rfl
  | cons c cs ih =>
    match c with
    | .fit (.row _) => simp [transFitted, ih]
    | .fit (.pair _) => simp [transFitted, ih]
    | .transform _ => simp [transFitted, ih]
    | .fitTransform _ => simp [transFitted, ih]

end RaggedDecomposer

section
variable {K : Type*} [Field K] [DecidableEq K] [CharZero K] {d s w : ℕ}

/-- **C208 (partial), a trend window of 1.** If the wrong array does not have length 1, the call raises `ValueError`,
and from the next fit of an instance on no answer shows that it was made. -/
theorem C208_window_one_partial (hs : 0 < s) {s0 : RaggedState K}
    (h0 : RaggedDecomposer.new (s : ℤ) (some (1 : ℤ)) = .ok s0) (cs : List (TransCall (Fin d → K)))
    (hX : transFitted cs ≠ []) {c : TransCall (List K)} {z : List K} (hc : transFitted [c] = [z]) (hz : z.length ≠ d)
    (hz1 : z.length ≠ 1) :
    transAnswer (raggedDecomposer K) (afterTrans (raggedDecomposer K) s0 (cs.map TransCall.asArrays)) c =
        .error .valueError ∧
      ∀ (cs' : List (TransCall (Fin d → K))) (c' : TransCall (Fin d → K)), transFitted (cs' ++ [c']) ≠ [] →
        transAnswer (raggedDecomposer K) (afterTrans (raggedDecomposer K) s0
          (cs.map TransCall.asArrays ++ c :: cs'.map TransCall.asArrays)) c'.asArrays =
        transAnswer (raggedDecomposer K) (afterTrans (raggedDecomposer K) s0
          ((cs ++ cs').map TransCall.asArrays)) c'.asArrays := by
  have h1 := flat_history hs h0 cs hX
  obtain ⟨h2, h3⟩ := flat_wrong (by simp) h1 hc hz hz1
  refine ⟨h2, fun cs' c' hn => ?_⟩
  rw [← List.singleton_append, after_append, after_append, List.map_append, after_append]
  have h4 := flat_after cs' (by simp) h1
  have h5 := flat_after cs' (by simp) h3
  cases hl : (transFitted cs').getLast? with
  | none =>
    rw [hl] at h4 h5
    refine flat_answer (by simp) h5 (by simp) h4 c' (Or.inl ?_)
    rw [List.getLast?_eq_none_iff] at hl
    rwa [transFitted_append, hl] at hn
  | some y =>
    rw [hl] at h4 h5
    exact flat_answer (by simp) h5 (by simp) h4 c' (Or.inr ⟨rfl, List.ofFn y, rfl, by simp⟩)

/-- **C208 is false** also for a trend window of 1: the next `transform_partial` does not answer with as many numbers
as there are features. -/
theorem C208_window_one_refuted (hs : 0 < s) : ¬ RejectsWithoutTrace K s 1 d := by
  intro h
  have h0 : RaggedDecomposer.new (K := K) (s : ℤ) (some (1 : ℤ)) = .ok ⟨s, 1, [], none, 0⟩ := by
    unfold RaggedDecomposer.new
    rw [if_neg (by omega)]
    simp
  have h1 := (h _ (by exact_mod_cast h0) [.fit (.row fun _ => 0)] (by simp [transFitted])
    (.fit (.row (List.replicate (d + 2) 0))) (by simp [TransCall.instanceOf])).2 [] (.transform fun _ => 0)
  have h2 := flat_history hs h0 [.fit (.row fun _ : Fin d => (0 : K))] (by simp [transFitted])
  obtain ⟨-, k, h4, h5, h6, h7⟩ := flat_wrong (by simp) h2 (c := .fit (.row (List.replicate (d + 2) 0)))
    (z := List.replicate (d + 2) 0) rfl (by simp) (by simp)
  have h3 := C208_alone hs one_pos (by exact_mod_cast h0) [.fit (.row fun _ : Fin d => (0 : K))] fun _ => 0
  rw [List.append_nil] at h1
  have h8 := h1.trans h3
  rw [List.map_nil, after_append] at h8
  set st := afterTrans (raggedDecomposer K) (afterTrans (raggedDecomposer K) ⟨s, 1, [], none, 0⟩
    (List.map TransCall.asArrays [.fit (.row fun _ : Fin d => (0 : K))])) [.fit (.row (List.replicate (d + 2) 0))]
  change (transformPartial st _).out.map some = _ at h8
  have h9 : ∀ y, (transformPartial st (List.ofFn fun _ : Fin d => (0 : K))).out = .ok y → y.length ≠ d := by
    intro y hy
    unfold transformPartial at hy
    simp only [h6, trend_single, arrays, h7, Option.getD_some, subTrend, ok_bind] at hy
    cases hb : sub (List.ofFn fun _ : Fin d => (0 : K)) (List.replicate (d + 2) 0) with
    | error e => rw [hb] at hy; cases hy
    | ok u =>
      rw [hb] at hy
      simp only [ok_bind] at hy
      have hu : u.length = d + 2 := by
        rw [sub_long hb (by simp)]; simp
      cases hv : subSeasonal (fun _ => List.replicate d 0, k) (st.numSeen % st.seasonLength) u with
      | error e => rw [hv] at hy; cases hy
      | ok v =>
        rw [hv] at hy
        obtain rfl : v = y := by simpa [Res.out] using hy
        have hvl : v.length = u.length := by
          unfold subSeasonal at hv
          split_ifs at hv with hk
          · cases hv; rfl
          · exact sub_long' hv (by omega)
        omega
  cases hy : (transformPartial st (List.ofFn fun _ : Fin d => (0 : K))).out with
  | error e => rw [hy] at h8; cases h8
  | ok y =>
    rw [hy] at h8
    simp only [Except.map, Except.ok.injEq, Option.some.injEq] at h8
    exact h9 y hy (by rw [h8]; simp)

/-- **C208 is false**, for every season length, every trend window and every number of features. -/
theorem C208_every_window_refuted (hs : 0 < s) (hw : 0 < w) : ¬ RejectsWithoutTrace K s w d := by
  by_cases h : w = 1
  · subst h; exact C208_window_one_refuted hs
  · exact C208_refuted hs (by omega)

/-- With a window of 1: a wrong fit raises, the transform after it does, and nothing is left of it after the next
fit. -/
example : let after := afterTrans (raggedDecomposer ℚ) ⟨2, 1, [], none, 0⟩
    let calls : List (TransCall (Fin 2 → ℚ)) := [.fit (.row ![1, 2]), .fitTransform ![3, 4]]
    let wrong : TransCall (List ℚ) := .fit (.row [5, 6, 7])
    transAnswer (raggedDecomposer ℚ) (after (calls.map TransCall.asArrays)) wrong = .error .valueError ∧
    transAnswer (raggedDecomposer ℚ) (after (calls.map TransCall.asArrays ++ [wrong])) (.transform [1, 2]) =
      .error .valueError ∧
    transAnswer (raggedDecomposer ℚ) (after (calls.map TransCall.asArrays ++ wrong :: [.fit (.row [1, 2])]))
      (.transform [4, 7]) = .ok (some [3, 5]) := by
  decide +kernel

end

end Pysad
