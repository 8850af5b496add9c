import Verif.Model.XStreamInit
import Verif.Props.HalfSpaceTrees
import Verif.Props.XStream

/-! Property C139: `xStream` as its constructor makes it. -/

namespace Pysad

open Spec XStream

section
variable {G β K : Type*} [Field K] [LinearOrder K]

theorem drawFeatures_spec (rng : XsRng G K) (hr : InRange rng.randint) (k : ℕ) (hk : 1 ≤ k) (depth : ℕ)
    (g : G) : ∃ fs g', drawFeatures rng k depth g = .ok (fs, g') ∧ fs.length = depth := by
  induction depth generalizing g with
  | zero => exact ⟨[], g, rfl, rfl⟩
  | succ depth ih =>
    obtain ⟨fs, g', h1, h2⟩ := ih (rng.randint g k).2
    refine ⟨⟨(rng.randint g k).1, hr g k hk⟩ :: fs, g', ?_, by simp [h2]⟩
    simp only [drawFeatures]
    rw [dif_pos (hr g k hk), h1]
    rfl

theorem drawChains_spec (rng : XsRng G K) (hr : InRange rng.randint) (k : ℕ) (hk : 1 ≤ k) (depth n : ℕ)
    (g : G) : ∃ draws g', drawChains rng k depth n g = .ok (draws, g') ∧ draws.length = n ∧
      ∀ d ∈ draws, d.fs.length = depth ∧ ∃ g, d.randArr = (rng.rand g k).1 := by
  induction n generalizing g with
  | zero => exact ⟨[], g, rfl, rfl, by simp⟩
  | succ n ih =>
    obtain ⟨fs, g1, h1, h2⟩ := drawFeatures_spec rng hr k hk depth g
    obtain ⟨draws, g2, h3, h4, h5⟩ := ih (rng.rand g1 k).2
    refine ⟨⟨fs, (rng.rand g1 k).1⟩ :: draws, g2, ?_, by simp [h4], ?_⟩
    · simp only [drawChains, drawChain, h1, Except.map, Except.bind, h3]
    · intro d hd
      rcases List.mem_cons.1 hd with rfl | hd
      · exact ⟨h2, g1, rfl⟩
      · exact h5 d hd

end

section
variable {G β K : Type*} [Field K] [LinearOrder K] [IsStrictOrderedRing K] [FloorRing K]

/-- **C139.** `xStream(num_components=k, n_chains=n, depth=D, window_size=W)`, all at least 1:
construction succeeds for every state of the generator, later fits never raise, and a score is the
mean over `n` chains of `D` features each of minus the least `log2 (1 + count) + depth`, the
instances being projected to `k` dimensions by the Streamhash projection of density 1/3: what is
binned is what `StreamhashProjector.fit_transform_partial` returns. -/
theorem C139_xstream_constructed (rng : XsRng G K) (hr : InRange rng.randint) (sqrt : K → K)
    (mmh3 : String → ℕ → ℕ) (log2 : K → K) (k n D W : ℕ) (hk : 1 ≤ k) (hn : 1 ≤ n) (hD : 1 ≤ D)
    (hW : 1 ≤ W) (g : G) :
    ∃ s0 g', construct rng sqrt k n D W g = .ok (s0, g') ∧
      ∃ (p : StreamhashState K) (fs : Fin n → List (Fin k)) (u : Fin n → Fin k → K),
        p.nComponents = k ∧ p.density = 1 / 3 ∧ p.constant = sqrt 3 / sqrt (k : K) ∧
        (∀ i, (fs i).length = D) ∧ (∀ i, ∃ g, u i = (rng.rand g k).1) ∧
        (∀ x : List K, ∃ y, (Streamhash.transformer mmh3).fitTransformPartial p x = .ok y p ∧
          numbersOf y = List.ofFn (project mmh3 p x : Fin k → K)) ∧
        ∀ (cs : List (Call (List K) β)) (x : List K),
          (∀ y, (call (detector mmh3 log2) (calls (detector mmh3 log2) s0 cs).2
            (.fit x y : Call (List K) β)).1 = .done) ∧
          (call (detector mmh3 log2) (calls (detector mmh3 log2) s0 cs).2
            (.score x : Call (List K) β)).1 = .value (.fin ((∑ i, chainScore log2 W (fs i) (u i)
              ((fitted cs).map (project mmh3 p)) (project mmh3 p x)) / (n : K))) := by
  obtain ⟨draws, g', h1, h2, h3⟩ := drawChains_spec rng hr k hk D n g
  have h30 : (1 / 3 : K) ≠ 0 := by norm_num
  refine ⟨new ⟨k, sqrt (1 / (1 / 3)) / sqrt (k : K), 1 / 3⟩ W draws, g', ?_,
    ⟨k, sqrt (1 / (1 / 3)) / sqrt (k : K), 1 / 3⟩, fun i => (draws[i]'(h2 ▸ i.2)).fs,
    fun i => (draws[i]'(h2 ▸ i.2)).randArr, rfl, rfl, by norm_num, ?_, ?_,
    xstream_project mmh3 _ rfl hk, ?_⟩
  · simp only [construct, Streamhash.new, if_neg h30, Except.bind, h1, Except.map]
  · intro i
    exact (h3 _ (List.getElem_mem _)).1
  · intro i
    exact (h3 _ (List.getElem_mem _)).2
  · intro cs x
    refine ⟨fun y => (C78_xstream_widths mmh3 log2 _ W hW draws cs).2 x y, ?_⟩
    have hne : draws ≠ [] := by
      rintro rfl
      simp at h2
      omega
    rw [C77_xstream_score mmh3 log2 _ W hW draws hne (by
      intro d hd h0
      have := (h3 d hd).1
      rw [h0] at this
      simp at this
      omega) cs x]
    subst h2
    congr 3
    rw [← List.sum_ofFn]
    congr 1
    apply List.ext_getElem
    · simp
    · intro i h1 h2
      simp [images]

/-- **C139.** Without components the constructor raises `ValueError` (if there are chains with a
depth). -/
theorem C139_xstream_no_components (rng : XsRng G K) (sqrt : K → K) (n D W : ℕ) (hn : 1 ≤ n)
    (hD : 1 ≤ D) (g : G) : construct rng sqrt 0 n D W g = .error .valueError := by
  have h30 : (1 / 3 : K) ≠ 0 := by norm_num
  obtain ⟨n, rfl⟩ : ∃ m, n = m + 1 := ⟨n - 1, by omega⟩
  obtain ⟨D, rfl⟩ : ∃ m, D = m + 1 := ⟨D - 1, by omega⟩
  simp [construct, Streamhash.new, Except.bind, drawChains, drawChain, drawFeatures, Except.map]

end

/-- **C139.** `xStream()`, with its default arguments: construction succeeds, fits never raise, and
every score, after any history, is a number between `-(1 + log2 26)` and `-1`. -/
theorem C139_xstream_default {G β : Type*} (rng : XsRng G ℝ) (hr : InRange rng.randint)
    (mmh3 : String → ℕ → ℕ) (g : G) :
    ∃ s0 g', constructDefault rng Real.sqrt g = .ok (s0, g') ∧
      ∀ (cs : List (Call (List ℝ) β)) (x : List ℝ),
        (∀ y, (call (detector mmh3 npLog2) (calls (detector mmh3 npLog2) s0 cs).2
          (.fit x y : Call (List ℝ) β)).1 = .done) ∧
        ∃ v, (call (detector mmh3 npLog2) (calls (detector mmh3 npLog2) s0 cs).2
          (.score x : Call (List ℝ) β)).1 = .value (.fin v) ∧
          -(1 + Real.logb 2 26) ≤ v ∧ v ≤ -1 := by
  obtain ⟨draws, g', h1, h2, h3⟩ := drawChains_spec rng hr 100 (by norm_num) 25 100 g
  have h30 : (1 / 3 : ℝ) ≠ 0 := by norm_num
  refine ⟨new ⟨100, Real.sqrt (1 / (1 / 3)) / Real.sqrt ((100 : ℕ) : ℝ), 1 / 3⟩ 25 draws, g', ?_, ?_⟩
  · simp only [constructDefault, construct, Streamhash.new, if_neg h30, Except.bind, h1, Except.map]
  · intro cs x
    refine ⟨fun y => (C78_xstream_widths mmh3 npLog2 _ 25 (by norm_num) draws cs).2 x y, ?_⟩
    have hne : draws ≠ [] := by
      rintro rfl
      simp at h2
    obtain ⟨v, hv1, hv2, hv3⟩ := C78_xstream_bounds (β := β) mmh3
      ⟨100, Real.sqrt (1 / (1 / 3)) / Real.sqrt ((100 : ℕ) : ℝ), 1 / 3⟩ 25 (by norm_num) draws hne (by
        intro d hd h0
        have := (h3 d hd).1
        rw [h0] at this
        simp at this) cs x
    refine ⟨v, hv1, ?_, hv3⟩
    have : (1 + ((25 : ℕ) : ℝ)) = 26 := by norm_num
    rwa [this] at hv2

/-- A generator that satisfies the assumption, and what is drawn from it. -/
example : InRange (fun (g n : ℕ) => (g % n, g + 1)) ∧
    (drawChains (⟨fun g n => (g % n, g + 1), fun g _ => (fun _ => (g : ℚ), g + 1)⟩ : XsRng ℕ ℚ)
      3 2 2 4).map (fun p => (p.1.map fun d => d.fs, p.2)) = .ok ([[1, 2], [1, 2]], 10) :=
  ⟨fun g _ hn => Nat.mod_lt g hn, by decide +kernel⟩

end Pysad
