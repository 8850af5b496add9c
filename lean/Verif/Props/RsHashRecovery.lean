import Verif.Model.RsHashInterrupt
import Verif.Props.RsHash
import Verif.Props.HstRecovery

/-! Property C176: RSHash forgets an interrupted fit at the rate of its decay. -/

namespace Pysad
open Spec HstRecovery RsHash

namespace RsHashRecovery

section
variable {K : Type*} [Field K] [LinearOrder K] [IsStrictOrderedRing K] [FloorRing K] {dim : ℕ}

omit [LinearOrder K] [IsStrictOrderedRing K] [FloorRing K] in
theorem sketchStages_final (pow2 : K → K) (decay : K) (t : ℤ) (key : List ℤ) (sks : List (RsSketch K)) :
    final (sketchStages pow2 decay t key sks) sks = sks.map fun sk => (visit pow2 decay t key sk).2 := by
  induction sks with
  | nil => rfl
  | cons sk sks ih =>
    rw [sketchStages, List.map_cons, ← ih]
    exact final_map (fun sks' => (visit pow2 decay t key sk).2 :: sks') _ sks

omit [IsStrictOrderedRing K] in
theorem componentStages_final (pow2 log : K → K) (decay : K) (t : ℤ) (x : Fin dim → K)
    (cs : List (RsComponent K dim)) (r : ℕ) (acc : K) (sks : List (RsSketch K)) :
    final (componentStages pow2 decay t x r cs sks) sks = (components pow2 log decay t x r cs acc sks).state := by
  induction cs generalizing r acc sks with
  | nil => rfl
  | cons c cs ih =>
    rw [componentStages, final_append, sketchStages_final]
    unfold components
    simp only
    cases sks with
    | nil =>
      have hnil : ∀ (cs : List (RsComponent K dim)) r, componentStages pow2 decay t x r cs [] = [] := by
        intro cs
        induction cs with
        | nil => intro r; rfl
        | cons c cs ih => intro r; simp [componentStages, sketchStages, ih]
      simp only [List.map_nil, hnil]
      rfl
    | cons sk sks =>
      simp only [List.map_cons, pyMin]
      rw [ih (r + 1) _]
      simp only [List.map_map]
      rfl
end

end RsHashRecovery

variable {dim : ℕ}

/-- The assignments together are `fit_partial`. -/
theorem rshash_statements_complete {K : Type*} [Field K] [LinearOrder K] [IsStrictOrderedRing K] [FloorRing K]
    (pow2 log : K → K) (s : RsHashState K dim) (x : Fin dim → K) :
    runStatements (RsHash.statements pow2 log x s) s = (RsHash.fitPartial pow2 log s x).state := by
  unfold RsHash.statements
  rw [run_final]
  unfold fitStages RsHash.fitPartial
  rw [final_append, final_map (fun sks => ({ s with cmsketches := sks } : RsHashState K dim)) _ s.cmsketches,
    RsHashRecovery.componentStages_final pow2 log s.decay s.index x s.components 0 0]
  cases h : components pow2 log s.decay s.index x 0 s.components 0 s.cmsketches with
  | err e sks => rfl
  | ok a sks =>
    simp only
    split_ifs <;> rfl

namespace RsHashRecovery

theorem pow_add (a b : ℝ) : realPow2 (a + b) = realPow2 a * realPow2 b :=
  Real.rpow_add (by norm_num : (0 : ℝ) < 2) a b

/-- The sketch represents the events `T` and, for every cell, at most `N` more, none of them later than `M`. -/
def Near (decay : ℝ) (N : List ℤ → ℕ) (M : ℤ) (T : List ℤ → List ℤ) (sk : RsSketch ℝ) : Prop :=
  ∃ E : List ℤ → List ℤ, (∀ key, (E key).length ≤ N key ∧ ∀ t ∈ E key, t ≤ M) ∧
    Good realPow2 decay (fun key => T key ++ E key) sk

theorem Near.mono {decay : ℝ} {N N' : List ℤ → ℕ} {M M' : ℤ} {T : List ℤ → List ℤ} {sk : RsSketch ℝ}
    (h : Near decay N M T sk) (hN : ∀ key, N key ≤ N' key) (hM : M ≤ M') : Near decay N' M' T sk := by
  obtain ⟨E, h1, h2⟩ := h
  exact ⟨E, fun key => ⟨(h1 key).1.trans (hN key), fun t ht => ((h1 key).2 t ht).trans hM⟩, h2⟩

theorem good_perm {decay : ℝ} {T T' : List ℤ → List ℤ} {sk : RsSketch ℝ} (hp : ∀ key, (T key).Perm (T' key))
    (h : Good realPow2 decay T sk) : Good realPow2 decay T' sk := by
  intro key
  have := h key
  cases hk : sk key with
  | none =>
    rw [hk] at this
    have h0 : T key = [] := this
    have := hp key
    rw [h0] at this
    exact List.perm_nil.1 this.symm
  | some v =>
    rw [hk] at this
    intro u
    rw [← this u]
    exact ((hp key).map _).sum_eq.symm

theorem weight_append (decay : ℝ) (T E : List ℤ) (u : ℤ) :
    weight realPow2 decay (T ++ E) u = weight realPow2 decay T u + weight realPow2 decay E u := by
  simp [weight]

theorem weight_nonneg (decay : ℝ) (T : List ℤ) (u : ℤ) : 0 ≤ weight realPow2 decay T u := by
  apply List.sum_nonneg
  intro a ha
  obtain ⟨t, -, rfl⟩ := List.mem_map.1 ha
  exact (Real.rpow_pos_of_pos (by norm_num) _).le

/-- Old events weigh little. -/
theorem weight_le (decay : ℝ) (hd : 0 ≤ decay) (E : List ℤ) (n : ℕ) (M u : ℤ) (hn : E.length ≤ n)
    (hM : ∀ t ∈ E, t ≤ M) : weight realPow2 decay E u ≤ n * (2 : ℝ) ^ (-(decay * ((u - M : ℤ) : ℝ))) := by
  have hpos : (0 : ℝ) ≤ (2 : ℝ) ^ (-(decay * ((u - M : ℤ) : ℝ))) := (Real.rpow_pos_of_pos (by norm_num) _).le
  have h1 : weight realPow2 decay E u ≤ E.length * (2 : ℝ) ^ (-(decay * ((u - M : ℤ) : ℝ))) := by
    unfold weight
    have := List.sum_le_card_nsmul (E.map fun t => realPow2 (-decay * ((u - t : ℤ) : ℝ)))
      ((2 : ℝ) ^ (-(decay * ((u - M : ℤ) : ℝ)))) (by
        intro a ha
        obtain ⟨t, ht, rfl⟩ := List.mem_map.1 ha
        apply Real.rpow_le_rpow_of_exponent_le (by norm_num)
        have : ((u - M : ℤ) : ℝ) ≤ ((u - t : ℤ) : ℝ) := by
          have := hM t ht
          exact_mod_cast (by omega : u - M ≤ u - t)
        nlinarith)
    simpa using this
  refine h1.trans (mul_le_mul_of_nonneg_right ?_ hpos)
  exact_mod_cast hn

theorem visit_near {decay : ℝ} {N : List ℤ → ℕ} {M : ℤ} {T : List ℤ → List ℤ} {sk : RsSketch ℝ}
    (h : Near decay N M T sk) (t : ℤ) (key : List ℤ) :
    Near decay N M (Function.update T key (T key ++ [t])) (visit realPow2 decay t key sk).2 := by
  obtain ⟨E, h1, h2⟩ := h
  refine ⟨E, h1, good_perm (fun k => ?_) (visit_good pow_add decay _ sk h2 t key)⟩
  by_cases hk : k = key
  · subst hk
    simp only [Function.update_self]
    rw [List.append_assoc, List.append_assoc]
    exact List.Perm.append_left _ List.perm_append_comm
  · simp only [Function.update_of_ne hk]
    exact List.Perm.refl _

/-- A visit of which nothing else is known. -/
theorem visit_stray {decay : ℝ} {N : List ℤ → ℕ} {M : ℤ} {T : List ℤ → List ℤ} {sk : RsSketch ℝ}
    (h : Near decay N M T sk) (t : ℤ) (hM : M ≤ t) (key : List ℤ) :
    Near decay (fun k => N k + if k = key then 1 else 0) t T (visit realPow2 decay t key sk).2 := by
  obtain ⟨E, h1, h2⟩ := h
  refine ⟨Function.update E key (E key ++ [t]), fun k => ?_,
    good_perm (fun k => ?_) (visit_good pow_add decay _ sk h2 t key)⟩
  · by_cases hk : k = key
    · subst hk
      simp only [Function.update_self, if_true, List.length_append, List.length_singleton]
      refine ⟨by have := (h1 k).1; omega, fun u hu => ?_⟩
      rcases List.mem_append.1 hu with hu | hu
      · exact ((h1 k).2 u hu).trans hM
      · simp only [List.mem_singleton] at hu; omega
    · simp only [Function.update_of_ne hk, if_neg hk]
      exact ⟨(h1 k).1, fun u hu => ((h1 k).2 u hu).trans hM⟩
  · by_cases hk : k = key
    · subst hk
      simp only [Function.update_self]
      rw [List.append_assoc]
    · simp only [Function.update_of_ne hk]
      exact List.Perm.refl _

theorem visit_bounds {decay : ℝ} (hd : 0 ≤ decay) {N : List ℤ → ℕ} {n : ℕ} (hN : ∀ key, N key ≤ n) {M : ℤ}
    {T : List ℤ → List ℤ} {sk : RsSketch ℝ} (h : Near decay N M T sk) (t : ℤ) (key : List ℤ) :
    weight realPow2 decay (T key) t ≤ (visit realPow2 decay t key sk).1 ∧
    (visit realPow2 decay t key sk).1 ≤
      weight realPow2 decay (T key) t + n * (2 : ℝ) ^ (-(decay * ((t - M : ℤ) : ℝ))) := by
  obtain ⟨E, h1, h2⟩ := h
  rw [visit_weight pow_add decay _ sk h2 t key, weight_append]
  have a := weight_nonneg decay (E key) t
  have b := weight_le decay hd (E key) n M t ((h1 key).1.trans (hN key)) (h1 key).2
  exact ⟨by linarith, by linarith⟩

theorem pyMin_bounds (l : List ℝ) (lo hi : ℝ) (hne : l ≠ []) (h : ∀ a ∈ l, lo ≤ a ∧ a ≤ hi) :
    ∃ m, pyMin l = .ok m ∧ lo ≤ m ∧ m ≤ hi := by
  cases l with
  | nil => exact absurd rfl hne
  | cons a l =>
    refine ⟨_, rfl, ?_⟩
    have ha := h a (by simp)
    have hl : ∀ b ∈ l, lo ≤ b ∧ b ≤ hi := fun b hb => h b (by simp [hb])
    clear h hne
    induction l generalizing a with
    | nil => exact ha
    | cons b l ih =>
      rw [List.foldl_cons]
      refine ih _ ?_ fun c hc => hl c (by simp [hc])
      split_ifs
      · exact hl b (by simp)
      · exact ha

theorem log_lipschitz {w c ε : ℝ} (hw : 0 ≤ w) (h1 : w ≤ c) (h2 : c ≤ w + ε) :
    Real.log (1 + w) ≤ Real.log (1 + c) ∧ Real.log (1 + c) ≤ Real.log (1 + w) + ε := by
  refine ⟨Real.log_le_log (by linarith) (by linarith), ?_⟩
  have h : Real.log (1 + c) - Real.log (1 + w) = Real.log ((1 + c) / (1 + w)) :=
    (Real.log_div (by linarith) (by linarith)).symm
  have h3 := Real.log_le_sub_one_of_pos (show 0 < (1 + c) / (1 + w) by apply div_pos <;> linarith)
  have h4 : (1 + c) / (1 + w) - 1 = (c - w) / (1 + w) := by field_simp; ring
  have h5 : (c - w) / (1 + w) ≤ c - w := div_le_self (by linarith) (by linarith)
  linarith

/-- The loop over the components. -/
theorem components_near (decay : ℝ) (hd : 0 ≤ decay) (t : ℤ) (x : Fin dim → ℝ) (N : List ℤ → ℕ) (n : ℕ)
    (hN : ∀ key, N key ≤ n) (M : ℤ) (cs : List (RsComponent ℝ dim)) (r : ℕ)
    (acc : ℝ) (T : List ℤ → List ℤ) (sks : List (RsSketch ℝ)) (hne : sks ≠ [])
    (h : ∀ sk ∈ sks, Near decay N M T sk) :
    ∃ a sks', components realPow2 Real.log decay t x r cs acc sks = .ok a sks' ∧
      acc + ((cs.zipIdx r).map fun p =>
        Real.log (1 + weight realPow2 decay (T (cell p.2 p.1 x)) t)).sum ≤ a ∧
      a ≤ acc + ((cs.zipIdx r).map fun p =>
        Real.log (1 + weight realPow2 decay (T (cell p.2 p.1 x)) t)).sum +
        cs.length * (n * (2 : ℝ) ^ (-(decay * ((t - M : ℤ) : ℝ)))) ∧
      sks' ≠ [] ∧ ∀ sk ∈ sks', Near decay N M
        (fun key => T key ++ if key ∈ cellsFrom x r cs then [t] else []) sk := by
  induction cs generalizing r acc T sks with
  | nil =>
    refine ⟨acc, sks, by simp [components], by simp, by simp, hne, ?_⟩
    simpa [cellsFrom] using h
  | cons c cs ih =>
    unfold components
    simp only
    set ε := (n : ℝ) * (2 : ℝ) ^ (-(decay * ((t - M : ℤ) : ℝ)))
    obtain ⟨m, hm, hlo, hhi⟩ := pyMin_bounds ((sks.map (visit realPow2 decay t (cell r c x))).map Prod.fst)
      (weight realPow2 decay (T (cell r c x)) t) (weight realPow2 decay (T (cell r c x)) t + ε)
      (by simpa using hne) (by
        intro a ha
        simp only [List.map_map, List.mem_map, Function.comp] at ha
        obtain ⟨sk, hsk, rfl⟩ := ha
        exact visit_bounds hd hN (h sk hsk) t _)
    rw [hm]
    obtain ⟨hl1, hl2⟩ := log_lipschitz (weight_nonneg decay _ t) hlo hhi
    obtain ⟨a, sks', h1, h2, h3, h4, h5⟩ := ih (r + 1) (acc + Real.log (1 + m))
      (Function.update T (cell r c x) (T (cell r c x) ++ [t]))
      ((sks.map (visit realPow2 decay t (cell r c x))).map Prod.snd) (by simpa using hne) (by
        intro sk hsk
        simp only [List.map_map, List.mem_map, Function.comp] at hsk
        obtain ⟨sk0, hsk0, rfl⟩ := hsk
        exact visit_near (h sk0 hsk0) t _)
    have hsum : ((cs.zipIdx (r + 1)).map fun p => Real.log (1 + weight realPow2 decay
        (Function.update T (cell r c x) (T (cell r c x) ++ [t]) (cell p.2 p.1 x)) t)) =
        (cs.zipIdx (r + 1)).map fun p => Real.log (1 + weight realPow2 decay (T (cell p.2 p.1 x)) t) := by
      apply List.map_congr_left
      intro p hp
      have hle := List.le_snd_of_mem_zipIdx hp
      rw [Function.update_of_ne]
      intro he
      have := congrArg List.head? he
      rw [cell_head, cell_head] at this
      simp at this
      omega
    rw [hsum] at h2 h3
    refine ⟨a, sks', h1, ?_, ?_, h4, ?_⟩
    · rw [List.zipIdx_cons, List.map_cons, List.sum_cons]
      linarith
    · rw [List.zipIdx_cons, List.map_cons, List.sum_cons, List.length_cons]
      push_cast
      linarith
    · intro sk hsk
      have := h5 sk hsk
      have hT : (fun key => Function.update T (cell r c x) (T (cell r c x) ++ [t]) key ++
          if key ∈ cellsFrom x (r + 1) cs then [t] else []) =
          fun key => (T key ++ if key ∈ cellsFrom x r (c :: cs) then [t] else []) := by
        funext key
        have hmem : key ∈ cellsFrom x r (c :: cs) ↔ key = cell r c x ∨ key ∈ cellsFrom x (r + 1) cs := by
          simp [cellsFrom, List.zipIdx_cons]
        by_cases hk : key = cell r c x
        · subst hk
          rw [Function.update_self, if_neg (not_mem_cellsFrom x x c r (r + 1) cs (by omega)),
            if_pos (hmem.2 (Or.inl rfl)), List.append_nil]
        · rw [Function.update_of_ne hk]
          by_cases hk2 : key ∈ cellsFrom x (r + 1) cs
          · rw [if_pos hk2, if_pos (hmem.2 (Or.inr hk2))]
          · rw [if_neg hk2, if_neg (by rw [hmem]; tauto)]
      rw [hT] at this
      exact this

theorem sketchStages_near (decay : ℝ) (t : ℤ) (key : List ℤ) (N : List ℤ → ℕ) (M : ℤ) (hM : M ≤ t)
    (T : List ℤ → List ℤ) (sks : List (RsSketch ℝ)) (h : ∀ sk ∈ sks, Near decay N M T sk) :
    ∀ sks' ∈ sketchStages realPow2 decay t key sks, sks' ≠ [] ∧
      ∀ sk ∈ sks', Near decay (fun k => N k + if k = key then 1 else 0) t T sk := by
  induction sks with
  | nil => intro sks' h'; exact absurd h' List.not_mem_nil
  | cons sk sks ih =>
    intro sks' h'
    have hv := visit_stray (h sk (by simp)) t hM key
    rcases List.mem_cons.1 h' with rfl | h'
    · refine ⟨by simp, fun s hs => ?_⟩
      rcases List.mem_cons.1 hs with rfl | hs
      · exact hv
      · exact (h s (by simp [hs])).mono (fun k => Nat.le_add_right _ _) hM
    · obtain ⟨l, hl, rfl⟩ := List.mem_map.1 h'
      refine ⟨by simp, fun s hs => ?_⟩
      rcases List.mem_cons.1 hs with rfl | hs
      · exact hv
      · exact (ih (fun s hs => h s (by simp [hs])) l hl).2 s hs

theorem componentStages_near (decay : ℝ) (t : ℤ) (x : Fin dim → ℝ) (cs : List (RsComponent ℝ dim)) (r : ℕ)
    (N : List ℤ → ℕ) (M : ℤ) (hM : M ≤ t) (T : List ℤ → List ℤ) (sks : List (RsSketch ℝ))
    (h : ∀ sk ∈ sks, Near decay N M T sk) :
    ∀ sks' ∈ componentStages realPow2 decay t x r cs sks, sks' ≠ [] ∧
      ∀ sk ∈ sks', Near decay (fun k => N k + if k ∈ cellsFrom x r cs then 1 else 0) t T sk := by
  induction cs generalizing r N M sks with
  | nil => intro sks' h'; exact absurd h' List.not_mem_nil
  | cons c cs ih =>
    have hmem : ∀ key, key ∈ cellsFrom x r (c :: cs) ↔ key = cell r c x ∨ key ∈ cellsFrom x (r + 1) cs := by
      intro key; simp [cellsFrom, List.zipIdx_cons]
    intro sks' h'
    rcases List.mem_append.1 h' with h' | h'
    · obtain ⟨h1, h2⟩ := sketchStages_near decay t _ N M hM T sks h sks' h'
      refine ⟨h1, fun sk hsk => (h2 sk hsk).mono (fun k => ?_) le_rfl⟩
      by_cases hk : k = cell r c x
      · rw [if_pos hk, if_pos ((hmem k).2 (Or.inl hk))]
      · rw [if_neg hk]; omega
    · obtain ⟨h1, h2⟩ := ih (r + 1) (fun k => N k + if k = cell r c x then 1 else 0) t le_rfl _ (by
        intro sk hsk
        obtain ⟨sk0, hsk0, rfl⟩ := List.mem_map.1 hsk
        exact visit_stray (h sk0 hsk0) t hM _) sks' h'
      refine ⟨h1, fun sk hsk => (h2 sk hsk).mono (fun k => ?_) le_rfl⟩
      by_cases hk : k = cell r c x
      · rw [if_pos hk, if_pos ((hmem k).2 (Or.inl hk)), hk,
          if_neg (not_mem_cellsFrom x x c r (r + 1) cs (by omega))]
      · rw [if_neg hk]
        by_cases hk2 : k ∈ cellsFrom x (r + 1) cs
        · rw [if_pos hk2, if_pos ((hmem k).2 (Or.inr hk2))]
        · rw [if_neg hk2]; omega

/-- The state is that after the stream `X`, up to at most `n` more events in every cell, none of them later
than `M`. -/
def After (comps : List (RsComponent ℝ dim)) (decay : ℝ) (i0 : ℤ) (X : List (Fin dim → ℝ)) (n : ℕ) (M : ℤ)
    (s : RsHashState ℝ dim) : Prop :=
  s.components = comps ∧ s.decay = decay ∧ s.cmsketches ≠ [] ∧ s.index = i0 + (X.length : ℤ) ∧ M ≤ s.index ∧
  ∀ sk ∈ s.cmsketches, Near decay (fun _ => n) M (events i0 comps X) sk

/-- A complete fit. -/
theorem fit_after (comps : List (RsComponent ℝ dim)) (hm : comps ≠ []) (decay : ℝ) (hd : 0 ≤ decay) (i0 : ℤ)
    (X : List (Fin dim → ℝ)) (n : ℕ) (M : ℤ) (s : RsHashState ℝ dim) (h : After comps decay i0 X n M s)
    (x : Fin dim → ℝ) :
    ∃ s' a, fitPartial realPow2 Real.log s x = .ok () s' ∧ After comps decay i0 (X ++ [x]) n M s' ∧
      s'.lastScore = some a ∧ rsScore realPow2 Real.log decay comps X x ≤ a ∧
      a ≤ rsScore realPow2 Real.log decay comps X x +
        n * (2 : ℝ) ^ (-(decay * ((i0 + (X.length : ℤ) - M : ℤ) : ℝ))) := by
  obtain ⟨h1, h2, h3, h4, h5, h6⟩ := h
  obtain ⟨a, sks', g1, g2, g3, g4, g5⟩ := components_near decay hd s.index x (fun _ => n) n (fun _ => le_rfl) M
    comps 0 0 (events i0 comps X) s.cmsketches h3 h6
  have hlen : 0 < (comps.length : ℝ) := by
    have : 0 < comps.length := List.length_pos_of_ne_nil hm
    exact_mod_cast this
  have hsum : ((comps.zipIdx 0).map fun p => Real.log (1 + weight realPow2 decay
      (events i0 comps X (cell p.2 p.1 x)) s.index)).sum / comps.length =
      rsScore realPow2 Real.log decay comps X x := by
    unfold rsScore
    congr 1
    rw [← List.zipIdx_map_fst 0 comps, List.map_map]
    rw [List.zipIdx_map_fst 0 comps]
    congr 1
    apply List.map_congr_left
    intro p hp
    have hp' := List.mem_zipIdx_iff_getElem?.1 hp
    simp only [Function.comp]
    rw [h4, weight_events decay i0 comps X x p.1 p.2 hp']
  unfold fitPartial
  simp only [h1, h2, g1]
  rw [if_neg (by simpa using hm)]
  refine ⟨_, _, rfl, ⟨rfl, rfl, g4, ?_, ?_, ?_⟩, rfl, ?_, ?_⟩
  · simp only [h4, List.length_append, List.length_singleton]; push_cast; ring
  · simp only; omega
  · intro sk hsk
    have := g5 sk hsk
    simp only [h4, ← events_snoc] at this
    exact this
  · rw [← hsum]
    apply div_le_div_of_nonneg_right _ hlen.le
    linarith
  · rw [← hsum, div_add' _ _ _ hlen.ne', ← h4]
    apply div_le_div_of_nonneg_right _ hlen.le
    linarith

/-- An interrupted fit. -/
theorem stage_after (comps : List (RsComponent ℝ dim)) (hm : comps ≠ []) (decay : ℝ) (hd : 0 ≤ decay) (i0 : ℤ)
    (X : List (Fin dim → ℝ)) (n : ℕ) (M : ℤ) (s : RsHashState ℝ dim) (h : After comps decay i0 X n M s)
    (x : Fin dim → ℝ) : ∀ t ∈ fitStages realPow2 Real.log s x,
      After comps decay i0 X (n + 1) (i0 + (X.length : ℤ)) t ∨ After comps decay i0 (X ++ [x]) n M t := by
  intro t ht
  obtain ⟨s', a, e1, e2, -⟩ := fit_after comps hm decay hd i0 X n M s h x
  obtain ⟨h1, h2, h3, h4, h5, h6⟩ := h
  obtain ⟨b, sks', g1, -, -, -, -⟩ := components_near decay hd s.index x (fun _ => n) n (fun _ => le_rfl) M
    comps 0 0 (events i0 comps X) s.cmsketches h3 h6
  have hst := componentStages_near decay s.index x comps 0 (fun _ => n) M h5 (events i0 comps X) s.cmsketches h6
  have key : ∀ u : RsHashState ℝ dim, u.components = comps → u.decay = decay → u.index = s.index →
      u.cmsketches ∈ componentStages realPow2 decay s.index x 0 comps s.cmsketches →
      After comps decay i0 X (n + 1) (i0 + (X.length : ℤ)) u := by
    intro u u1 u2 u3 u4
    obtain ⟨k1, k2⟩ := hst _ u4
    refine ⟨u1, u2, k1, u3.trans h4, (u3.trans h4).ge, fun sk hsk => ?_⟩
    exact (k2 sk hsk).mono (fun k => by split_ifs <;> omega) h4.le
  unfold fitStages at ht
  rw [h1, h2] at ht
  rcases List.mem_append.1 ht with ht | ht
  · obtain ⟨sks, hsks, rfl⟩ := List.mem_map.1 ht
    exact Or.inl (key _ rfl rfl rfl hsks)
  · rw [g1] at ht
    have hc0 : ¬ comps.length = 0 := by simpa using hm
    simp only [if_neg hc0, List.mem_cons, List.not_mem_nil, or_false] at ht
    unfold fitPartial at e1
    simp only [h1, h2, g1, if_neg hc0] at e1
    rcases ht with rfl | rfl
    · left
      have hfin := componentStages_final realPow2 Real.log decay s.index x comps 0 0 s.cmsketches
      rw [g1] at hfin
      rcases final_mem (componentStages realPow2 decay s.index x 0 comps s.cmsketches) s.cmsketches with
        ⟨f1, f2⟩ | f1
      · exfalso
        obtain ⟨c, cs, rfl⟩ := List.exists_cons_of_ne_nil hm
        obtain ⟨sk, sks, hsk⟩ := List.exists_cons_of_ne_nil h3
        rw [hsk] at f2
        simp [componentStages, sketchStages] at f2
      · rw [hfin] at f1
        exact key _ rfl rfl rfl f1
    · right
      have := (Res.ok.inj e1).2
      rw [this]
      exact e2

theorem history_after (comps : List (RsComponent ℝ dim)) (hm : comps ≠ []) (decay : ℝ) (hd : 0 ≤ decay)
    (sp nh : ℕ) (hnh : 1 ≤ nh) (h : List ((Fin dim → ℝ) × Option ℕ)) :
    ∃ l, Reading h l ∧ After comps decay (1 - (sp : ℤ)) l (interruptions h) (1 - (sp : ℤ) + (l.length : ℤ))
      (afterCalls (RsHash.statements realPow2 Real.log) (RsHash.new comps sp decay nh) h) := by
  induction h using List.reverseRecOn with
  | nil =>
    refine ⟨[], .nil, rfl, rfl, ?_, by simp [afterCalls, RsHash.new], by simp [afterCalls, RsHash.new], ?_⟩
    · simp only [afterCalls, List.foldl_nil, RsHash.new]
      intro h0
      have := congrArg List.length h0
      simp at this; omega
    · intro sk hsk
      simp only [afterCalls, List.foldl_nil, RsHash.new, List.mem_replicate] at hsk
      rw [hsk.2]
      exact ⟨fun _ => [], fun key => ⟨by simp, by simp⟩, fun key => rfl⟩
  | append_singleton h e ih =>
    obtain ⟨l, h1, h2⟩ := ih
    obtain ⟨x, o⟩ := e
    rw [afterCalls_append]
    generalize afterCalls (RsHash.statements realPow2 Real.log) (RsHash.new comps sp decay nh) h = t at h2 ⊢
    have up : ∀ (m : ℕ) (hm : interruptions h ≤ m) (l' : List (Fin dim → ℝ)) (M : ℤ) (u : RsHashState ℝ dim),
        After comps decay (1 - (sp : ℤ)) l' (interruptions h) M u →
        After comps decay (1 - (sp : ℤ)) l' m (1 - (sp : ℤ) + (l'.length : ℤ)) u := by
      intro m hm l' M u ⟨a1, a2, a3, a4, a5, a6⟩
      exact ⟨a1, a2, a3, a4, a4.ge, fun sk hsk => (a6 sk hsk).mono (fun _ => hm) (a4 ▸ a5)⟩
    cases o with
    | none =>
      have hi : interruptions (h ++ [(x, none)]) = interruptions h := by simp [interruptions]
      refine ⟨l ++ [x], reading_append h1 (.done .nil), ?_⟩
      obtain ⟨t', a, e1, e2, -⟩ := fit_after comps hm decay hd _ l _ _ t h2 x
      change After _ _ _ _ _ _ (runStatements (RsHash.statements realPow2 Real.log x t) t)
      rw [rshash_statements_complete, e1, hi]
      exact up _ le_rfl _ _ _ e2
    | some j =>
      have hi : interruptions (h ++ [(x, some j)]) = interruptions h + 1 := by simp [interruptions]
      rw [hi]
      change ∃ l', Reading _ l' ∧ After _ _ _ l' _ _
        (runStatements ((RsHash.statements realPow2 Real.log x t).take j) t)
      unfold RsHash.statements
      rw [← List.map_take, run_final]
      have hlost : Reading (h ++ [(x, some j)]) l := by
        simpa using reading_append h1 (.lost (x := x) (k := j) .nil)
      rcases final_mem (List.take j (fitStages realPow2 Real.log t x)) t with ⟨e1, -⟩ | e1
      · rw [e1]
        exact ⟨l, hlost, up _ (Nat.le_succ _) _ _ _ h2⟩
      · rcases stage_after comps hm decay hd _ l _ _ t h2 x _ (List.mem_of_mem_take e1) with h3 | h3
        · exact ⟨l, hlost, h3⟩
        · exact ⟨l ++ [x], reading_append h1 (.took .nil), up _ (Nat.le_succ _) _ _ _ h3⟩

theorem later_after (comps : List (RsComponent ℝ dim)) (hm : comps ≠ []) (decay : ℝ) (hd : 0 ≤ decay)
    (i0 : ℤ) (l : List (Fin dim → ℝ)) (n : ℕ) (M : ℤ) (t : RsHashState ℝ dim) (h : After comps decay i0 l n M t)
    (X : List (Fin dim → ℝ)) : After comps decay i0 (l ++ X) n M
      (afterCalls (RsHash.statements realPow2 Real.log) t (X.map fun x => (x, none))) := by
  induction X using List.reverseRecOn with
  | nil => rw [List.append_nil]; exact h
  | append_singleton X x ih =>
    obtain ⟨t', a, e1, e2, -⟩ := fit_after comps hm decay hd i0 _ n M _ ih x
    rw [List.map_append, afterCalls_append, ← List.append_assoc]
    generalize afterCalls (RsHash.statements realPow2 Real.log) t (X.map fun x => (x, none)) = u at e1 ⊢
    change After _ _ _ _ _ _ (runStatements (RsHash.statements realPow2 Real.log x u) u)
    rw [rshash_statements_complete, e1]
    exact e2

end RsHashRecovery

open RsHashRecovery

/-- What can be asked of an RSHash detector. -/
noncomputable def RsHash.answers (s : RsHashState ℝ dim) (z : Fin dim → ℝ) : Except PyErr (Option ℝ) :=
  ((RsHash.detector (β := Unit) realPow2 Real.log).scorePartial s z).out

/-- **C176.** After a history of fits of which some were interrupted, followed by complete fits, the score is
not below that of a detector to which every interrupted fit either happened or did not, and above it by at most
`2 ^ (-decay * (n - 1))` for every interruption, `n` the number of complete fits since. -/
theorem C176_rshash_forgets (comps : List (RsComponent ℝ dim)) (hm : comps ≠ []) (sp : ℕ) (decay : ℝ)
    (hd : 0 ≤ decay) (nh : ℕ) (hnh : 1 ≤ nh) (h : List ((Fin dim → ℝ) × Option ℕ))
    (X : List (Fin dim → ℝ)) (hX : X ≠ []) :
    ∃ l, Reading h l ∧ ∃ a b : ℝ, ∀ z,
      RsHash.answers (afterCalls (RsHash.statements realPow2 Real.log) (RsHash.new comps sp decay nh)
        (h ++ X.map fun x => (x, none))) z = .ok (some a) ∧
      RsHash.answers (calls (RsHash.detector (β := Unit) realPow2 Real.log) (RsHash.new comps sp decay nh)
        ((l ++ X).map fun x => .fit x none)).2 z = .ok (some b) ∧
      b ≤ a ∧ a ≤ b + interruptions h * (2 : ℝ) ^ (-(decay * ((X.length : ℝ) - 1))) := by
  obtain ⟨l, h1, h2⟩ := history_after comps hm decay hd sp nh hnh h
  refine ⟨l, h1, ?_⟩
  obtain ⟨Y, x, rfl⟩ : ∃ Y x, X = Y ++ [x] := ⟨X.dropLast, X.getLast hX, (List.dropLast_append_getLast hX).symm⟩
  have h3 := later_after comps hm decay hd _ l _ _ _ h2 Y
  obtain ⟨t', a, e1, -, e2, e3, e4⟩ := fit_after comps hm decay hd _ _ _ _ _ h3 x
  refine ⟨a, rsScore realPow2 Real.log decay comps (l ++ Y) x, fun z => ⟨?_, ?_, e3, ?_⟩⟩
  · rw [afterCalls_append, List.map_append, afterCalls_append]
    generalize afterCalls (RsHash.statements realPow2 Real.log) _ (Y.map fun x => (x, none)) = u at e1 ⊢
    change RsHash.answers (runStatements (RsHash.statements realPow2 Real.log x u) u) z = _
    rw [rshash_statements_complete, e1]
    change Except.ok t'.lastScore = _
    rw [e2]
  · have := C72_rshash_score (β := Unit) comps hm sp decay nh hnh ((l ++ (Y ++ [x])).map fun x => .fit x none)
      (l ++ Y) x z (by rw [fitted_fits, List.append_assoc])
    unfold RsHash.answers
    rw [this]
    rfl
  · have : ((1 - (sp : ℤ) + ((l ++ Y).length : ℤ) - (1 - (sp : ℤ) + (l.length : ℤ)) : ℤ) : ℝ) =
        ((Y ++ [x]).length : ℝ) - 1 := by
      simp only [List.length_append, List.length_singleton]; push_cast; ring
    rw [this] at e4
    exact e4

/-! ### Never exactly -/

/-- The stronger claim: after enough complete fits the score is exactly that of a detector to which every
interrupted fit either happened or did not. -/
def C176_exact : Prop :=
  ∃ N : ℕ, ∀ (dim : ℕ) (comps : List (RsComponent ℝ dim)), comps ≠ [] → ∀ (sp : ℕ) (decay : ℝ), 0 < decay →
    ∀ nh, 1 ≤ nh → ∀ (h : List ((Fin dim → ℝ) × Option ℕ)) (X : List (Fin dim → ℝ)), N ≤ X.length →
    ∃ l, Reading h l ∧
      RsHash.answers (afterCalls (RsHash.statements realPow2 Real.log) (RsHash.new comps sp decay nh)
        (h ++ X.map fun x => (x, none))) =
      RsHash.answers (calls (RsHash.detector (β := Unit) realPow2 Real.log) (RsHash.new comps sp decay nh)
        ((l ++ X).map fun x => .fit x none)).2

namespace RsHashRecovery

/-- The state is that after the stream `X`, with the events `T` besides. -/
def Exactly (comps : List (RsComponent ℝ dim)) (decay : ℝ) (i0 : ℤ) (T : List ℤ → List ℤ)
    (X : List (Fin dim → ℝ)) (s : RsHashState ℝ dim) : Prop :=
  s.components = comps ∧ s.decay = decay ∧ s.cmsketches ≠ [] ∧ s.index = i0 + (X.length : ℤ) ∧
  ∀ sk ∈ s.cmsketches, Good realPow2 decay (fun key => T key ++ events i0 comps X key) sk

theorem fit_exactly (comps : List (RsComponent ℝ dim)) (hm : comps ≠ []) (decay : ℝ) (i0 : ℤ)
    (T : List ℤ → List ℤ) (X : List (Fin dim → ℝ)) (s : RsHashState ℝ dim) (h : Exactly comps decay i0 T X s)
    (x : Fin dim → ℝ) :
    ∃ s', fitPartial realPow2 Real.log s x = .ok () s' ∧ Exactly comps decay i0 T (X ++ [x]) s' ∧
      s'.lastScore = some (((comps.zipIdx 0).map fun p => Real.log (1 +
        (weight realPow2 decay (T (cell p.2 p.1 x)) (i0 + (X.length : ℤ)) +
          decayedCount realPow2 decay p.1 X x))).sum / comps.length) := by
  obtain ⟨h1, h2, h3, h4, h5⟩ := h
  obtain ⟨sks', g1, g2, g3⟩ := components_ok (log := Real.log) pow_add decay s.index x comps 0 0 _ s.cmsketches h3 h5
  unfold fitPartial
  simp only [h1, h2, g1]
  rw [if_neg (by simpa using hm)]
  refine ⟨_, rfl, ⟨rfl, rfl, g2, ?_, ?_⟩, ?_⟩
  · simp only [h4, List.length_append, List.length_singleton]; push_cast; ring
  · intro sk hsk key
    have := g3 sk hsk key
    simp only [h4, List.append_assoc, ← events_snoc] at this
    exact this
  · simp only [zero_add]
    congr 3
    apply List.map_congr_left
    intro p hp
    have hp' := List.mem_zipIdx_iff_getElem?.1 hp
    rw [h4, weight_append, weight_events decay i0 comps X x p.1 p.2 hp']

theorem decayedCount_cons (decay : ℝ) (c : RsComponent ℝ dim) (earlier : List (Fin dim → ℝ))
    (old x : Fin dim → ℝ) (hs : SameCell c old x) :
    decayedCount realPow2 decay c (old :: earlier) x =
      (2 : ℝ) ^ (-(decay * ((earlier.length : ℝ) + 1))) + decayedCount realPow2 decay c earlier x := by
  unfold decayedCount
  rw [List.zipIdx_cons, List.filter_cons]
  simp only [hs, decide_true, if_true, List.map_cons, List.sum_cons]
  congr 1
  · simp
  · rw [List.zipIdx_succ, List.filter_map, List.map_map]
    congr 1
    have hf : ((fun p : (Fin dim → ℝ) × ℕ => decide (SameCell c p.1 x)) ∘
        fun p : (Fin dim → ℝ) × ℕ => (p.1, p.2 + 1)) = fun p => decide (SameCell c p.1 x) := rfl
    rw [hf]
    apply List.map_congr_left
    intro p _
    simp only [Function.comp, List.length_cons]
    congr 2
    push_cast
    ring

/-- One feature, one cell of width 1 around 0. -/
def unitComponent : RsComponent ℝ 1 := ⟨[(0, 0)], 1⟩

end RsHashRecovery

/-- **C176 is not exact**, however many complete fits follow: here one of two components has counted an
instance of which the other knows nothing. -/
theorem C176_never_exact_refuted : ¬ C176_exact := by
  rintro ⟨n, hc⟩
  set x : Fin 1 → ℝ := fun _ => 0 with hx
  set c := unitComponent with hcdef
  set s0 := RsHash.new [c, c] 1 (1 : ℝ) 1 with hs0
  obtain ⟨l, hl, he⟩ := hc 1 [c, c] (by simp) 1 1 one_pos 1 le_rfl [(x, some 1)] (List.replicate (n + 1) x)
    (by simp)
  have hsame : SameCell c x x := fun p _ => rfl
  set D := decayedCount realPow2 1 c (List.replicate n x) x with hD
  have hDpos : 0 ≤ D := by
    rw [hD]
    unfold decayedCount
    apply List.sum_nonneg
    intro a ha
    obtain ⟨p, -, rfl⟩ := List.mem_map.1 ha
    exact (Real.rpow_pos_of_pos (by norm_num) _).le
  set q := (2 : ℝ) ^ (-(n : ℝ)) with hq
  have hqpos : 0 < q := Real.rpow_pos_of_pos (by norm_num) _
  -- the interrupted detector
  set T : List ℤ → List ℤ := Function.update (fun _ => []) (cell 0 c x) ([] ++ [0]) with hT
  have hfirst : Exactly [c, c] 1 0 T [] (afterCalls (RsHash.statements realPow2 Real.log) s0 [(x, some 1)]) := by
    have hst : afterCalls (RsHash.statements realPow2 Real.log) s0 [(x, some 1)] =
        { s0 with cmsketches := [(visit realPow2 1 0 (cell 0 c x) fun _ => none).2] } := by
      change runStatements ((RsHash.statements realPow2 Real.log x s0).take 1) s0 = _
      unfold RsHash.statements
      rw [← List.map_take, run_final]
      rfl
    rw [hst]
    refine ⟨rfl, rfl, by simp, by simp [hs0, RsHash.new], ?_⟩
    intro sk hsk
    rw [List.mem_singleton.1 hsk]
    have := visit_good pow_add (1 : ℝ) (fun _ => []) (fun _ => none) (fun key => rfl) 0 (cell 0 c x)
    simpa [events, hT] using this
  have hlater : ∀ m, Exactly [c, c] 1 0 T (List.replicate m x)
      (afterCalls (RsHash.statements realPow2 Real.log) (afterCalls (RsHash.statements realPow2 Real.log) s0
        [(x, some 1)]) ((List.replicate m x).map fun x => (x, none))) := by
    intro m
    induction m with
    | zero => exact hfirst
    | succ m ih =>
      obtain ⟨s', e1, e2, -⟩ := fit_exactly _ (by simp) _ _ _ _ _ ih x
      rw [List.replicate_succ', List.map_append, afterCalls_append]
      generalize afterCalls (RsHash.statements realPow2 Real.log) _ ((List.replicate m x).map _) = u at e1 ⊢
      change Exactly _ _ _ _ _ (runStatements (RsHash.statements realPow2 Real.log x u) u)
      rw [rshash_statements_complete, e1]
      exact e2
  obtain ⟨s', e1, -, e3⟩ := fit_exactly _ (by simp) _ _ _ _ _ (hlater n) x
  have hleft : RsHash.answers (afterCalls (RsHash.statements realPow2 Real.log) s0
      ([(x, some 1)] ++ (List.replicate (n + 1) x).map fun x => (x, none))) x =
      .ok (some ((Real.log (1 + (q + D)) + Real.log (1 + D)) / 2)) := by
    rw [afterCalls_append, List.replicate_succ', List.map_append, afterCalls_append]
    generalize afterCalls (RsHash.statements realPow2 Real.log) _ ((List.replicate n x).map _) = u at e1 ⊢
    change RsHash.answers (runStatements (RsHash.statements realPow2 Real.log x u) u) x = _
    rw [rshash_statements_complete, e1]
    change Except.ok s'.lastScore = _
    rw [e3]
    have h0 : T (cell 0 c x) = [0] := by rw [hT, Function.update_self]; rfl
    have h1 : T (cell 1 c x) = [] := by
      rw [hT, Function.update_of_ne]
      simp [RsHash.cell]
    simp only [List.zipIdx_cons, List.zipIdx_nil, List.map_cons, List.map_nil, List.sum_cons, List.sum_nil,
      List.length_cons, List.length_nil, List.length_replicate, zero_add, h0, h1, ← hD]
    have hw0 : weight realPow2 1 [0] (n : ℤ) = q := by simp [weight, hq]
    have hw1 : weight realPow2 1 [] (n : ℤ) = 0 := rfl
    rw [hw0, hw1]
    norm_num
  have hright : ∀ earlier : List (Fin 1 → ℝ), RsHash.answers (calls (RsHash.detector (β := Unit) realPow2 Real.log)
      s0 ((earlier ++ [x]).map fun x => .fit x none)).2 x =
      .ok (some (Real.log (1 + decayedCount realPow2 1 c earlier x))) := by
    intro earlier
    have := C72_rshash_score (β := Unit) [c, c] (by simp) 1 1 1 le_rfl
      ((earlier ++ [x]).map fun x => .fit x none) earlier x x (fitted_fits _)
    unfold RsHash.answers
    rw [this]
    simp [rsScore, Res.out]
  have he' := congrFun he x
  rw [hleft] at he'
  have hcases : l = [x] ∨ l = [] := by
    cases hl with
    | took h => cases h; exact Or.inl rfl
    | lost h => cases h; exact Or.inr rfl
  have hlogs : Real.log (1 + (q + D)) + Real.log (1 + D) = Real.log ((1 + (q + D)) * (1 + D)) :=
    (Real.log_mul (by linarith) (by linarith)).symm
  have hsq : ∀ v : ℝ, 0 < v → (Real.log (1 + (q + D)) + Real.log (1 + D)) / 2 = Real.log v →
      (1 + (q + D)) * (1 + D) = v * v := by
    intro v hv hval
    apply Real.log_injOn_pos (Set.mem_Ioi.2 (by positivity)) (Set.mem_Ioi.2 (by positivity))
    rw [Real.log_mul hv.ne' hv.ne', ← hlogs]
    linarith
  rcases hcases with rfl | rfl
  · rw [List.replicate_succ', ← List.append_assoc, hright, List.singleton_append,
      decayedCount_cons 1 c _ x x hsame, ← hD] at he'
    have hhalf : (2 : ℝ) ^ (-(1 * (((List.replicate n x).length : ℝ) + 1))) = q / 2 := by
      rw [List.length_replicate, one_mul, neg_add, Real.rpow_add (by norm_num), hq]
      rw [Real.rpow_neg_one]; ring
    rw [hhalf] at he'
    have := hsq (1 + (q / 2 + D)) (by positivity) (Option.some.inj (Except.ok.inj he'))
    nlinarith
  · rw [List.nil_append, List.replicate_succ', hright, ← hD] at he'
    have := hsq (1 + D) (by positivity) (Option.some.inj (Except.ok.inj he'))
    nlinarith

/-- A history that meets the hypotheses. -/
example := C176_rshash_forgets [unitComponent, unitComponent] (by simp) 1000 (15 / 1000) (by norm_num) 1 le_rfl
  [(fun _ => 0, none), (fun _ => 1 / 2, some 1), (fun _ => 3, some 3)] (List.replicate 100 fun _ => 1 / 4) (by simp)

end Pysad
