import Verif.Props.NewValues

/-! Property C211: what `RelativeEntropy` answers when all the values of a window lie in one part of the range. -/

namespace Pysad

open Spec

/-- The number of values in part `i` of the range, the two topmost parts counting as one. -/
noncomputable def Spec.inBin (lo hi : ℝ) (n : ℕ) (vs : List ℝ) (i : ℕ) : ℕ :=
  if i + 2 < n then inPart lo hi n vs i else inPart lo hi n vs (n - 2) + inPart lo hi n vs (n - 1)

namespace StuckWindow

open NewValues

theorem zero_add_num (a : Num ℝ) : Num.add (.fin 0) a = a := by
  cases a <;> simp [Num.add]

/-- A sum with one term that is not 0. -/
theorem foldl_one (f : ℕ → Num ℝ) (b : ℕ) (h : ∀ j, j ≠ b → f j = .fin 0)
    (hb : f b = .posInf ∨ ∃ x, f b = .fin x) :
    ∀ n, ((List.range n).map f).foldl Num.add (.fin 0) = if b < n then f b else .fin 0 := by
  intro n
  induction n with
  | zero => rfl
  | succ n ih =>
    rw [List.range_succ, List.map_append, List.foldl_append, ih, List.map_singleton, List.foldl_cons, List.foldl_nil]
    rcases lt_trichotomy b n with hc | rfl | hc
    · rw [if_pos hc, if_pos (by omega), h n (by omega)]
      rcases hb with hb | ⟨x, hb⟩ <;> rw [hb] <;> simp [Num.add]
    · rw [if_neg (by omega), if_pos (by omega), zero_add_num]
    · rw [if_neg (by omega), if_neg (by omega), h n (by omega), zero_add_num]

/-- The bins of a window inside the range. -/
theorem frequencies_parts {lo hi : ℝ} (hlt : lo < hi) {n W : ℕ} (hn : 2 ≤ n) (hW : 1 ≤ W) {X : List ℝ}
    (hX : X.length = W) (hr : ∀ v ∈ X, lo < v ∧ v ≤ hi) :
    frequencies lo ((hi - lo) / n) n X = ((List.range n).map fun j =>
      ((if j = 0 then 0 else inBin lo hi n X (j - 1) : ℕ) : ℝ) / (W : ℝ)).map Num.fin := by
  have h0 : RelEnt.new (fun _ => Num.nan) lo hi n W = .ok
      ⟨lo, hi, [], n, W, .nan, 0, (hi - lo) / n, [], [], none⟩ := by
    unfold RelEnt.new; rw [if_neg (by omega)]
  have h1 := C70_relent_bins_partial (β := Unit) (fun _ _ => .nan) (fun _ => .nan) lo hi hlt n W hn hW _ h0 X hX hr
  have h2 := relEnt_inv (β := Unit) (fun _ _ => .nan) (fun _ => .nan) lo hi hlt.ne n W (by omega) hW _ h0
    (X.map fun x => .fit x none)
  rw [fitted_map_fit] at h2
  obtain ⟨-, -, -, -, -, -, -, h3⟩ := h2
  obtain ⟨-, -, -, h4⟩ := h3 (by omega)
  rw [h4, lastN_of_le (by omega), Option.some.injEq] at h1
  rw [h1, List.map_map]
  apply List.map_congr_left
  intro j hj
  have := List.mem_range.1 hj
  simp only [Function.comp, inBin]
  congr 3
  split_ifs <;> first | rfl | omega

theorem inPart_all {lo hi : ℝ} (hlt : lo < hi) {n : ℕ} (hn : 1 ≤ n) {X : List ℝ} {i : ℕ}
    (h : ∀ v ∈ X, InPart lo hi n i v) (j : ℕ) : inPart lo hi n X j = if j = i then X.length else 0 := by
  unfold inPart
  split_ifs with hj
  · subst hj
    rw [List.countP_eq_length]
    intro v hv
    rw [decide_eq_true_iff]
    exact h v hv
  · rw [List.countP_eq_zero]
    intro v hv
    rw [decide_eq_true_iff]
    intro hc
    have e1 := (ceil_in hlt hn).1 (h v hv)
    have e2 := (ceil_part lo hi hlt n hn v j).1 hc
    omega

theorem inPart_range {lo hi : ℝ} (hlt : lo < hi) {n i : ℕ} (hi' : i < n) {v : ℝ} (h : InPart lo hi n i v) :
    lo < v ∧ v ≤ hi := by
  rw [ceil_range hlt (by omega : 1 ≤ n), (ceil_in hlt (by omega)).1 h]
  omega

/-- The relative frequencies add up to 1. -/
theorem parts_sum {lo hi : ℝ} (hlt : lo < hi) {n W : ℕ} (hn : 2 ≤ n) (hW : 1 ≤ W) {X : List ℝ}
    (hX : X.length = W) (hXr : ∀ v ∈ X, lo < v ∧ v ≤ hi) : ((List.range n).map fun j =>
      ((if j = 0 then 0 else inBin lo hi n X (j - 1) : ℕ) : ℝ) / (W : ℝ)).sum = 1 := by
  obtain ⟨v, hv⟩ : ∃ v, v ∈ X := List.exists_mem_of_length_pos (by omega)
  have hp := counted_pos hlt (by omega : 1 ≤ n) hv (hXr v hv)
  have e1 := frequencies_fin lo ((hi - lo) / n) n X hp
  rw [frequencies_parts hlt hn hW hX hXr] at e1
  have inj : Function.Injective (Num.fin : ℝ → Num ℝ) := fun a b h => by injection h
  rw [List.map_injective_iff.2 inj e1]
  exact frequencies_sum _ _ _ _ hp

/-- The relative entropy of a window with all values in one bin. -/
theorem entropy_stuck {lo hi : ℝ} (hlt : lo < hi) {n W : ℕ} (hn : 2 ≤ n) (hW : 1 ≤ W) {now before : List ℝ}
    (hl1 : now.length = W) (hl2 : before.length = W) (hb : ∀ u ∈ before, lo < u ∧ u ≤ hi) {i : ℕ} (hi' : i < n)
    (h : ∀ v ∈ now, InPart lo hi n i v) :
    Scipy.entropy Real.log (frequencies lo ((hi - lo) / n) n now) (frequencies lo ((hi - lo) / n) n before) =
      if inBin lo hi n before i = 0 then .posInf
      else .fin (Real.log ((W : ℝ) / inBin lo hi n before i)) := by
  have hWr : (0 : ℝ) < W := by exact_mod_cast hW
  have hr : ∀ v ∈ now, lo < v ∧ v ≤ hi := fun v hv => inPart_range hlt hi' (h v hv)
  rw [frequencies_parts hlt hn hW hl1 hr, frequencies_parts hlt hn hW hl2 hb]
  unfold Scipy.entropy
  simp only [mapM_finite]
  rw [parts_sum hlt hn hW hl1 hr, parts_sum hlt hn hW hl2 hb, if_neg (by norm_num)]
  simp only [div_one, List.map_id']
  rw [List.zipWith_map, List.zipWith_self]
  -- the bin of the part
  obtain ⟨b, hb1, hb0, hbi⟩ : ∃ b, b < n ∧ b ≠ 0 ∧
      b - 1 = if i + 2 < n then i else n - 2 := by
    by_cases hc : i + 2 < n
    · exact ⟨i + 1, by omega, by omega, by rw [if_pos hc]; omega⟩
    · exact ⟨n - 1, by omega, by omega, by rw [if_neg hc]; omega⟩
  have hsame : ∀ X, inBin lo hi n X (b - 1) = inBin lo hi n X i := by
    intro X
    unfold inBin
    rw [hbi]
    by_cases hc : i + 2 < n
    · simp [hc]
    · rw [if_neg hc, if_neg hc, if_neg (by omega)]
  have hfull : inBin lo hi n now i = W := by
    unfold inBin
    simp only [inPart_all hlt (by omega : 1 ≤ n) h, hl1]
    split_ifs <;> first | rfl | omega
  have hnone : ∀ j, j < n → j ≠ 0 → j ≠ b → inBin lo hi n now (j - 1) = 0 := by
    intro j hj hj0 hjb
    unfold inBin
    simp only [inPart_all hlt (by omega : 1 ≤ n) h]
    split_ifs at hbi ⊢ <;> first | rfl | omega
  set f : ℕ → Num ℝ := fun j => if j < n then Scipy.relEntr Real.log
    (((if j = 0 then 0 else inBin lo hi n now (j - 1) : ℕ) : ℝ) / (W : ℝ))
    (((if j = 0 then 0 else inBin lo hi n before (j - 1) : ℕ) : ℝ) / (W : ℝ)) else .fin 0 with hf
  have hfb : f b = if inBin lo hi n before i = 0 then .posInf
      else .fin (Real.log ((W : ℝ) / inBin lo hi n before i)) := by
    simp only [hf]
    rw [if_pos hb1, if_neg hb0, if_neg hb0, hsame, hsame, hfull, div_self hWr.ne']
    unfold Scipy.relEntr
    by_cases hc : inBin lo hi n before i = 0
    · rw [if_pos hc, hc]; simp
    · have hpos : (0 : ℝ) < inBin lo hi n before i := by exact_mod_cast Nat.pos_of_ne_zero hc
      rw [if_neg hc, if_pos ⟨one_pos, div_pos hpos hWr⟩, one_mul, one_div_div]
  have hfold := foldl_one f b (by
    intro j hj
    simp only [hf]
    by_cases hjn : j < n
    · have hz : (if j = 0 then 0 else inBin lo hi n now (j - 1)) = 0 := by
        by_cases hj0 : j = 0
        · rw [if_pos hj0]
        · rw [if_neg hj0]; exact hnone j hjn hj0 hj
      rw [if_pos hjn, hz, Nat.cast_zero, zero_div]
      unfold Scipy.relEntr
      rw [if_neg (by simp), if_pos ⟨rfl, by positivity⟩]
    · rw [if_neg hjn]) (by
    rw [hfb]
    split_ifs
    · exact Or.inl rfl
    · exact Or.inr ⟨_, rfl⟩) n
  rw [if_pos hb1, hfb] at hfold
  rw [← hfold]
  congr 1
  apply List.map_congr_left
  intro j hj
  simp only [hf]
  rw [if_pos (List.mem_range.1 hj)]

end StuckWindow

open NewValues StuckWindow

variable {β : Type*}

/-- **C211.** When the last `W` values all lie in one part of the range, the score is -1 if no value of the first window
lies there; if `c` of them do, it is 0 exactly if `2 W log (W / c)` is below the threshold. The two topmost parts count as
one. -/
theorem C211_stuck (isf : ℤ → Num ℝ) (lo hi : ℝ) (hlt : lo < hi) (n W : ℕ) (hn : 2 ≤ n) (hW : 1 ≤ W)
    (s0 : RelEntState ℝ) (h0 : RelEnt.new isf lo hi n W = .ok s0) (cs : List (Call ℝ β)) (x : ℝ)
    (hl : W ≤ (fitted cs).length) (hb : ∀ u ∈ (fitted cs).take W, lo < u ∧ u ≤ hi) (i : ℕ) (hi' : i < n)
    (hnow : ∀ v ∈ lastN W (fitted cs), InPart lo hi n i v) :
    let c := inBin lo hi n ((fitted cs).take W) i
    (c = 0 → relEntAnswer s0 cs x = .ok (-1)) ∧
    (c ≠ 0 → (relEntAnswer s0 cs x = .ok 0 ↔
        Below (.fin (2 * W * Real.log (W / c))) (isf ((n : ℤ) - 1))) ∧
      (relEntAnswer s0 cs x = .ok (-1) ↔
        ¬ Below (.fin (2 * W * Real.log (W / c))) (isf ((n : ℤ) - 1)))) := by
  intro c
  have h := C69_relent_score (β := β) (Scipy.entropy Real.log) isf lo hi hlt.ne n W (by omega) hW s0 h0 cs x
  simp only at h
  have hlen : (lastN W (fitted cs)).length = W := by
    unfold lastN; rw [List.length_drop]; omega
  rw [entropy_stuck hlt hn hW hlen (by rw [List.length_take]; omega) hb hi' hnow, if_neg (by omega)] at h
  unfold relEntAnswer
  rw [h]
  constructor
  · intro hc
    rw [if_pos hc, if_neg (by rintro ⟨-, h⟩; nomatch h)]
    rfl
  · intro hc
    rw [if_neg hc]
    have e : scaled (2 * (W : ℝ)) (.fin (Real.log (W / inBin lo hi n ((fitted cs).take W) i))) =
        .fin (2 * W * Real.log (W / c)) := rfl
    rw [e]
    by_cases hB : Below (.fin (2 * W * Real.log (W / c))) (isf ((n : ℤ) - 1))
    · rw [if_pos ⟨hB, .infinity _⟩]
      simp [hB, Res.out]
    · rw [if_neg fun h => hB h.1]
      simp [hB, Res.out]

/-- **C211.** A window inside the part in which the whole first window lies is not reported, with a positive threshold. -/
theorem C211_steady (isf : ℤ → Num ℝ) (lo hi : ℝ) (hlt : lo < hi) (n W : ℕ) (hn : 2 ≤ n) (hW : 1 ≤ W)
    (hT : Below (.fin 0) (isf ((n : ℤ) - 1)))
    (s0 : RelEntState ℝ) (h0 : RelEnt.new isf lo hi n W = .ok s0) (cs : List (Call ℝ β)) (x : ℝ)
    (hl : W ≤ (fitted cs).length) (i : ℕ) (hi' : i < n) (hb : ∀ u ∈ (fitted cs).take W, InPart lo hi n i u)
    (hnow : ∀ v ∈ lastN W (fitted cs), InPart lo hi n i v) : relEntAnswer s0 cs x = .ok 0 := by
  have h := (C211_stuck isf lo hi hlt n W hn hW s0 h0 cs x hl (fun u hu => inPart_range hlt hi' (hb u hu)) i hi' hnow).2
  have hc : inBin lo hi n ((fitted cs).take W) i = W := by
    unfold inBin
    simp only [inPart_all hlt (by omega : 1 ≤ n) hb, List.length_take, min_eq_left hl]
    split_ifs <;> first | rfl | omega
  have hWr : (W : ℝ) ≠ 0 := by exact_mod_cast (show W ≠ 0 by omega)
  rw [hc] at h
  refine ((h (by omega)).1).2 ?_
  rw [div_self hWr, Real.log_one, mul_zero]
  exact hT

/-- The hypotheses of C211 in a concrete case: range `(0, 4]`, four bins, windows of two values; a first window with one
value in the part `(0, 1]` where the stream then stays. The threshold is `4 log 2`, so this is just reported. -/
example : ∃ s0, RelEnt.new (fun _ => Num.fin (2 * 2 * Real.log 2)) 0 4 4 2 = .ok s0 ∧
    relEntAnswer s0 ([.fit 1 none, .fit 3 none, .fit (1 / 2) none, .fit 1 none] : List (Call ℝ Unit)) 0 = .ok (-1) := by
  have hc : inBin 0 4 4 ([1, 3] : List ℝ) 0 = 1 := by
    norm_num [inBin, inPart, List.countP_cons]
  refine ⟨_, rfl, ?_⟩
  have h := (C211_stuck (β := Unit) (fun _ => Num.fin (2 * 2 * Real.log 2)) 0 4 (by norm_num) 4 2 (by norm_num) (by norm_num) _
    rfl [.fit 1 none, .fit 3 none, .fit (1 / 2) none, .fit 1 none] 0 (by simp [fitted]) (by simp [fitted]; norm_num) 0
    (by norm_num) (by simp [fitted, lastN, InPart]; norm_num)).2
  have e : List.take 2 (fitted ([.fit 1 none, .fit 3 none, .fit (1 / 2) none, .fit 1 none] : List (Call ℝ Unit))) = [1, 3] := rfl
  rw [e, hc] at h
  refine (h one_ne_zero).2.2 ?_
  rintro (h | h)
  norm_num at h

end Pysad
