import Verif.Props.KitNet
import Verif.Props.Loda
import Verif.Props.Memory

/-! C103, continued: KitNet, LODA, StandardAbsoluteDeviation and PerfectModel. -/

namespace Pysad

open Spec

/-! ### KitNet -/

/-- How many numbers an autoencoder holds: a matrix, two biases, the least and the greatest input. -/
def Spec.daNumbers {K : Type*} (a : DaState K) : ℕ :=
  a.nVisible * a.nHidden + a.nHidden + 3 * a.nVisible

/-- How many numbers all the autoencoders of KitNet hold. -/
def Spec.kitnetNumbers {K : Type*} {n : ℕ} (s : KitNetState K n) : ℕ :=
  match s.model with
  | none => 0
  | some m => (m.ensemble.map daNumbers).sum + match m.output with
    | none => 0
    | some o => daNumbers o

section
variable {K β : Type*} [Field K] [LinearOrder K] [IsStrictOrderedRing K] [FloorRing K] {n : ℕ}

theorem daNumbers_new (env : KnEnv K) (lr hr : K) (h1 : hr ≤ 1) (p : ℕ) :
    daNumbers (newAutoencoder env lr hr p) ≤ p * p + 4 * p := by
  have hc : ⌈(p : K) * hr⌉ ≤ (p : ℤ) := by
    refine Int.ceil_le.2 ?_
    have : (0 : K) ≤ p := Nat.cast_nonneg p
    push_cast
    nlinarith
  have hh : ⌈(p : K) * hr⌉.toNat ≤ p := by omega
  simp only [daNumbers, newAutoencoder]
  have := Nat.mul_le_mul_left p hh
  omega

theorem daNumbers_train (env : KnEnv K) (a : DaState K) (x : ℕ → K) :
    daNumbers (Da.train env a x).2 = daNumbers a := rfl

theorem daNumbers_after (env : KnEnv K) (lr hr : K) (T : List (Fin n → K)) (idx : List (Fin n)) :
    daNumbers (autoencoderAfter env lr hr T idx) = daNumbers (newAutoencoder env lr hr idx.length) := by
  induction T using List.reverseRecOn with
  | nil => rfl
  | append_singleton T x ih => rw [autoencoderAfter_snoc, daNumbers_train, ih]

theorem daNumbers_output (env : KnEnv K) (lr hr : K) (v : List (List (Fin n))) (T : List (Fin n → K)) :
    daNumbers (outputAfter env lr hr v T) = daNumbers (newAutoencoder env lr hr v.length) := by
  induction T using List.reverseRecOn with
  | nil => rfl
  | append_singleton T x ih => rw [outputAfter_snoc, daNumbers_train, ih]

theorem sum_sq_parts (ps : List ℕ) : (ps.map fun p => p * p + 4 * p).sum ≤ ps.sum * ps.sum + 4 * ps.sum := by
  induction ps with
  | nil => simp
  | cons p ps ih =>
    simp only [List.map_cons, List.sum_cons]
    nlinarith [Nat.zero_le (p * ps.sum)]

theorem partition_length {v : List (List (Fin n))} (h : IsPartition v) :
    (v.map List.length).sum = n ∧ v.length ≤ n := by
  have h1 : (v.map List.length).sum = n := by
    rw [← List.length_flatten, h.1.length_eq, List.length_finRange]
  refine ⟨h1, ?_⟩
  have : v.length ≤ (v.map List.length).sum := by
    have h2 := h.2
    clear h1 h
    induction v with
    | nil => simp
    | cons p v ih =>
      have := ih fun q hq => h2 q (by simp [hq])
      have hp : 0 < p.length := List.length_pos_iff.2 (h2 p (by simp))
      simp only [List.length_cons, List.map_cons, List.sum_cons]
      omega
  omega

/-- **C103.** For `n` features KitNet's autoencoders never hold more than `2n² + 8n` numbers, if the
hidden ratio is at most 1 (it is 0.75 by default). (The arrays of the feature mapper have the fixed
sizes `n` and `n × n` in the model as in the code.) -/
theorem C103_kitnet_memory {env : KnEnv K} (law : LinkageLaws env) (hn : 2 ≤ n) (maxSize : ℤ)
    (fmo : Option ℕ) (ad : ℕ) (lr hr : K) (hr0 : 0 ≤ hr) (hr1 : hr ≤ 1)
    (cs : List (Call (Fin n → K) β)) :
    kitnetNumbers (calls (KitNet.detector env) (KitNet.new n maxSize fmo ad lr hr) cs).2
      ≤ 2 * (n * n + 4 * n) := by
  obtain ⟨h1, h2, -, -, -, -, -, hinv⟩ := kitnet_calls law hn maxSize fmo ad lr hr hr0 cs
  unfold kitnetNumbers
  by_cases hf : fitted cs = []
  · rw [h1 hf]; exact Nat.zero_le _
  obtain ⟨m, hm⟩ := h2 hf
  have hi : KitNet.init (calls (KitNet.detector env) (KitNet.new n maxSize fmo ad lr hr) cs).2
      = m := by simp [KitNet.init, hm]
  rw [hi] at hinv
  rw [hm]
  simp only
  by_cases hlen : (fitted cs).length ≤ fmo.getD ad
  · obtain ⟨_, e1, e2⟩ := hinv.early hlen
    rw [e1, e2]; simp
  · obtain ⟨v, _, _, hp, _, e1, e2⟩ := hinv.late (by omega)
    obtain ⟨hs, hl⟩ := partition_length hp
    rw [e1, e2]
    simp only [List.map_map]
    have h3 : (v.map (daNumbers ∘ autoencoderAfter env lr hr
        (trainingInstances (fmo.getD ad) ad (fitted cs)))).sum ≤ n * n + 4 * n := by
      calc _ ≤ ((v.map List.length).map fun p => p * p + 4 * p).sum := by
            rw [List.map_map]
            refine List.sum_le_sum fun idx _ => ?_
            rw [Function.comp_apply, daNumbers_after]
            exact daNumbers_new env lr hr hr1 _
        _ ≤ _ := sum_sq_parts _
        _ = _ := by rw [hs]
    have h4 : daNumbers (outputAfter env lr hr v (trainingInstances (fmo.getD ad) ad (fitted cs)))
        ≤ n * n + 4 * n := by
      rw [daNumbers_output]
      refine (daNumbers_new env lr hr hr1 _).trans ?_
      have := Nat.mul_le_mul hl hl
      omega
    omega

end

/-! ### LODA -/

/-- How many numbers the arrays of LODA hold. -/
def Spec.lodaNumbers {G K : Type*} (s : LodaState G K) : ℕ :=
  match s.arrays with
  | none => 0
  | some (_, cuts) => (cuts.map fun c => c.projection.length + c.histogram.length + c.limits.length).sum

/-- **C103.** From the first fit on LODA holds `cuts * (features + 2 bins + 1)` numbers, before
nothing; instances that are rejected change nothing about that. -/
theorem C103_loda_memory {G β : Type*} (rng : LodaRng G ℝ) (hr : RandnShape rng) (log : ℝ → Num ℝ)
    (nBins nCuts : ℕ) (hn : 1 ≤ nBins) (g : G) (cs : List (Call (List ℝ) β)) :
    lodaNumbers (calls (Loda.detector rng log) (Loda.new g nBins nCuts) cs).2 =
      match fitted cs with
      | [] => 0
      | x :: _ => nCuts * (x.length + (2 * nBins + 1)) := by
  have h := loda_inv (β := β) rng hr log nBins nCuts hn g cs
  unfold LodaInv at h
  obtain ⟨-, -, h⟩ := h
  unfold lodaNumbers
  cases hf : fitted cs with
  | nil => rw [hf] at h; simp only at h; rw [h]
  | cons x X =>
    rw [hf] at h
    obtain ⟨cuts, e, hl, hc⟩ := h
    rw [e]
    simp only
    rw [← hl]
    clear hl e
    induction cuts with
    | nil => simp
    | cons c cuts ih =>
      have := ih fun c h => hc c (by simp [h])
      obtain ⟨v, h1, h2, h3⟩ := hc c (by simp)
      simp only [List.map_cons, List.sum_cons, List.length_cons, this, h1, h2, h3, List.length_map,
        List.length_range]
      ring

/-! ### StandardAbsoluteDeviation -/

/-- The property for StandardAbsoluteDeviation with the median. -/
def C103_sad_statement : Prop :=
  BoundedMemory (standardAbsoluteDeviation (β := Unit) Real.sqrt (medianMeter ℝ))
    (SadState.new (medianMeter ℝ) true) fun s => (s.subMeter.lst.length : ℕ∞)

/-- **C103.** With the median, StandardAbsoluteDeviation keeps every value (partial: exactly that).
With the mean it has seven numbers, by its type. -/
theorem C103_sad_memory_partial {β : Type*} (absolute : Bool) (cs : List (Call (List ℝ) β)) :
    ((calls (standardAbsoluteDeviation Real.sqrt (medianMeter ℝ))
      (SadState.new (medianMeter ℝ) absolute) cs).2.subMeter.lst : Multiset ℝ) =
      (univariate (fitted cs) : Multiset ℝ) :=
  (sad_inv (β := β) median_refines absolute cs).2.1.1

theorem C103_sad_refuted : ¬ C103_sad_statement := by
  rintro ⟨B, hB⟩
  have h1 := hB (List.replicate (B + 1) (.fit [0] none))
  simp only at h1
  have h2 := congrArg Multiset.card (C103_sad_memory_partial true
    (List.replicate (B + 1) (Call.fit [(0 : ℝ)] (none : Option Unit))))
  rw [Multiset.coe_card, Multiset.coe_card] at h2
  rw [h2, fitted_replicate] at h1
  have : (univariate (List.replicate (B + 1) [(0 : ℝ)])).length = B + 1 := by
    simp [univariate]
  rw [this] at h1
  norm_cast at h1
  omega

/-! ### PerfectModel -/

/-- The property for PerfectModel. -/
def C103_perfect_statement : Prop :=
  BoundedMemory (perfectModel Unit ℕ) [] fun s => (s.length : ℕ∞)

/-- **C103.** PerfectModel keeps exactly the labels it was given and has not returned yet (partial):
at most as many as fits are ahead of scores. -/
theorem C103_perfect_memory_partial {α β : Type*} (cs : List (Call α β)) :
    (calls (perfectModel α β) [] cs).2.length + (valuesOf (calls (perfectModel α β) [] cs).1).length =
      (labelsOf cs).length := by
  have := congrArg List.length (perfect_inv cs)
  rw [List.length_append] at this
  omega

theorem C103_perfect_refuted : ¬ C103_perfect_statement := by
  rintro ⟨B, hB⟩
  have h1 := hB (List.replicate (B + 1) (.fit () (some 0)))
  have key : ∀ (n : ℕ) (s : List ℕ),
      (calls (perfectModel Unit ℕ) s (List.replicate n (.fit () (some 0)))).2.length = s.length + n := by
    intro n
    induction n with
    | zero => intro s; rfl
    | succ n ih =>
      intro s
      have := ih (s ++ [0])
      rw [List.length_append, List.length_singleton] at this
      rw [List.replicate_succ]
      change (calls (perfectModel Unit ℕ) (s ++ [0]) (List.replicate n (.fit () (some 0)))).2.length = _
      omega
  simp only at h1
  rw [key] at h1
  norm_cast at h1
  simp only [List.length_nil] at h1
  omega

/-- Three labels, one of them returned. -/
example : (calls (perfectModel Unit ℕ) [] [.fit () (some 7), .fit () (some 8), .score (), .fit () (some 9)]).2
    = [8, 9] := by decide +kernel

end Pysad
