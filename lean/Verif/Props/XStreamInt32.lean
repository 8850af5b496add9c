import Verif.Model.XStreamInt32
import Verif.Props.XStream
import Verif.Props.RsHashInt32

/-! Property C141: xStream stores its bins as 32-bit integers. -/

namespace Pysad

open Spec XStream

/-- The full claim of **C141**: with 32-bit bins xStream answers as with unbounded ones. -/
def C141_statement (conv : ℤ → ℤ) (mmh3 : String → ℕ → ℕ) : Prop :=
  ∀ (k : ℕ) (p : StreamhashState ℝ), Streamhash.new Real.sqrt k (1 / 3) = .ok p →
    ∀ (W : ℕ) (draws : List (XsDraw ℝ k)) (h : List (Call (List ℝ) Unit)),
    (calls (detector32 conv mmh3 npLog2) (XStream.new p W draws) h).1 =
      (calls (detector mmh3 npLog2) (XStream.new p W draws) h).1

/-- The image of an instance with one feature that is not zero. -/
theorem project_spike {k : ℕ} (mmh3 : String → ℕ → ℕ) (p : StreamhashState ℝ) (j : ℕ) (v : ℝ)
    (i : Fin k) : project mmh3 p (List.replicate j 0 ++ [v]) i =
      v * Streamhash.hashString mmh3 p i (toString j) := by
  have key : ∀ (n : ℕ) (g : ℕ → ℝ), (List.zipWith (· * ·) (List.replicate n (0 : ℝ) ++ [v])
      ((List.range (n + 1)).map g)).sum = v * g n := by
    intro n
    induction n with
    | zero => intro g; simp
    | succ n ih =>
      intro g
      rw [List.range_succ_eq_map, List.map_cons, List.replicate_succ, List.cons_append,
        List.zipWith_cons_cons, List.sum_cons, zero_mul, zero_add, List.map_map]
      exact ih _
  have := key j (fun n => Streamhash.hashString mmh3 p i (toString n))
  simpa [project] using this

/-- **C141 is false** whatever the conversion does with numbers that are too large, for every hash
function that does not ignore all features: some two different bins become one. -/
theorem C141_int32_refuted (conv : ℤ → ℤ) (hc : ConvertsInt32 conv) (mmh3 : String → ℕ → ℕ) (j : ℕ)
    (p : StreamhashState ℝ) (hp : Streamhash.new Real.sqrt 1 (1 / 3) = .ok p)
    (hj : Streamhash.hashString mmh3 p 0 (toString j) ≠ 0) : ¬ C141_statement conv mmh3 := by
  intro h
  obtain ⟨a, b, hne, hab⟩ := Finite.exists_ne_map_eq_of_infinite
    (fun z : ℤ => (⟨conv z, Finset.mem_Ico.2 (hc.range z)⟩ : Finset.Ico (-2 ^ 31 : ℤ) (2 ^ 31)))
  have hab : conv a = conv b := congrArg Subtype.val hab
  set e := Streamhash.hashString mmh3 p 0 (toString j) with he
  let at' : ℤ → List ℝ := fun z => List.replicate j 0 ++ [(z : ℝ) / (2 * e)]
  have hX : ∀ z, (project mmh3 p (at' z) : Fin 1 → ℝ) = fun _ => (z : ℝ) / 2 := by
    intro z
    funext i
    rw [project_spike, Subsingleton.elim i 0]
    show (z : ℝ) / (2 * e) * e = _
    field_simp
  have hx := h 1 p hp 2 [⟨[0], fun _ => 0⟩] [.fit (at' a) none, .score (at' b)]
  have hd : (clip (fun _ => 1 * (1 / 2) : Fin 1 → ℝ)) = fun _ => 1 / 2 := by
    funext f
    unfold clip
    rw [if_neg (by norm_num)]
    norm_num
  have hf : ∀ z : ℤ, binIndex32 conv (Function.update (fun _ : Fin 1 => (0 : ℝ)) 0 (z : ℝ))
      = fun _ => conv z := by
    intro z
    funext f
    rw [Subsingleton.elim f 0]
    unfold binIndex32 binIndex
    rw [Function.update_self, Int.floor_intCast]
  have hg : ∀ z : ℤ, binIndex (Function.update (fun _ : Fin 1 => (0 : ℝ)) 0 (z : ℝ)) = fun _ => z := by
    intro z
    funext f
    rw [Subsingleton.elim f 0]
    unfold binIndex
    rw [Function.update_self, Int.floor_intCast]
  have hne' : (fun _ : Fin 1 => b) ≠ fun _ => a := fun h => hne (congrFun h 0).symm
  simp only [calls, call, detector32, detector, fitPartial32, fitPartial, XStream.new, hX, scorePartial32,
    scorePartial, List.map_cons, List.map_nil, fitChain32, fitChain, newChain, fitLoop32, fitLoop,
    prebinStep, hd] at hx
  simp [record, newRefs, increment, scoreChains32, scoreChains, scoreChain32, scoreChain, bincount32, bincount,
    bincountLoop32, bincountLoop, prebinStep, npMin, Except.map, npDiv] at hx
  rw [show (project mmh3 p (at' b) : Fin 1 → ℝ) 0 * 2 = b by rw [hX]; ring, hf, hf, hg, hg, hab,
    Function.update_self, Function.update_of_ne hne'] at hx
  norm_num [npLog2] at hx

/-- All bins of the instance, at every depth of every chain, are 32-bit integers, with the widths in
force after the instances `xs`. -/
def Spec.BinsFit {k : ℕ} (W : ℕ) (draws : List (XsDraw ℝ k)) (xs : List (Fin k → ℝ)) (X : Fin k → ℝ) : Prop :=
  ∀ draw ∈ draws, ∀ d < draw.fs.length, ∀ f,
    -2 ^ 31 ≤ halfSpaceBin (draw.fs.take (d + 1)) draw.randArr (currentWidth W xs) X f ∧
      halfSpaceBin (draw.fs.take (d + 1)) draw.randArr (currentWidth W xs) X f < 2 ^ 31

/-- The instance of a call. -/
def Spec.instanceOf {α β : Type*} : Call α β → α
  | .fit x _ => x
  | .score x => x

section
variable {k : ℕ} (conv : ℤ → ℤ) (hc : ConvertsInt32 conv)
include hc

theorem binIndex32_pre (r δ X : Fin k → ℝ) (used : List (Fin k))
    (hb : ∀ f, -2 ^ 31 ≤ halfSpaceBin used r δ X f ∧ halfSpaceBin used r δ X f < 2 ^ 31) :
    binIndex32 conv (pre r δ X used).1 = halfSpaceBin used r δ X := by
  funext f
  unfold binIndex32
  rw [binIndex_pre]
  exact hc.exact _ (hb f).1 (hb f).2

theorem fitLoop32_eq (r δ X : Fin k → ℝ) (hδ : ∀ f, δ f ≠ 0) :
    ∀ (fs used : List (Fin k)) (c : XsChain ℝ k), c.deltamax = δ → (c.shift = fun f => r f * δ f) →
      (∀ d < fs.length, ∀ f, -2 ^ 31 ≤ halfSpaceBin (used ++ fs.take (d + 1)) r δ X f ∧
        halfSpaceBin (used ++ fs.take (d + 1)) r δ X f < 2 ^ 31) →
      fitLoop32 conv X c used.length fs (pre r δ X used) = fitLoop X c used.length fs (pre r δ X used) := by
  intro fs
  induction fs with
  | nil => intros; rfl
  | cons f fs ih =>
    intro used c hd hs hb
    rw [fitLoop32, fitLoop, prebinStep_pre c r δ X hδ hd hs, binIndex_pre,
      binIndex32_pre conv hc r δ X _ (by simpa using hb 0 (by simp))]
    have hrec := record_eq c used.length (halfSpaceBin (used ++ [f]) r δ X)
    have := ih (used ++ [f]) (record c used.length (halfSpaceBin (used ++ [f]) r δ X))
      (by rw [hrec]; exact hd) (by rw [hrec]; exact hs) (by
        intro d hd' g
        have := hb (d + 1) (by simpa using hd') g
        simpa using this)
    simpa using this

theorem bincountLoop32_eq (r δ X : Fin k → ℝ) (hδ : ∀ f, δ f ≠ 0) (c : XsChain ℝ k)
    (hd : c.deltamax = δ) (hs : c.shift = fun f => r f * δ f) :
    ∀ (fs used : List (Fin k)),
      (∀ d < fs.length, ∀ f, -2 ^ 31 ≤ halfSpaceBin (used ++ fs.take (d + 1)) r δ X f ∧
        halfSpaceBin (used ++ fs.take (d + 1)) r δ X f < 2 ^ 31) →
      bincountLoop32 conv X c used.length fs (pre r δ X used) =
        bincountLoop X c used.length fs (pre r δ X used) := by
  intro fs
  induction fs with
  | nil => intros; rfl
  | cons f fs ih =>
    intro used hb
    rw [bincountLoop32, bincountLoop, prebinStep_pre c r δ X hδ hd hs, binIndex_pre,
      binIndex32_pre conv hc r δ X _ (by simpa using hb 0 (by simp))]
    have := ih (used ++ [f]) (by
        intro d hd' g
        have := hb (d + 1) (by simpa using hd') g
        simpa using this)
    simp only [List.length_append, List.length_singleton] at this
    rw [this]

/-- **C141**, partial: as long as the bins of all instances given to `fit_partial` and `score_partial`
are 32-bit integers at the time of the call, all answers are those with unbounded bins (so that C77
describes them). -/
theorem C141_int32_partial {β : Type*} (mmh3 : String → ℕ → ℕ) (p : StreamhashState ℝ) (W : ℕ) (hW : 1 ≤ W)
    (draws : List (XsDraw ℝ k)) (h : List (Call (List ℝ) β))
    (hb : ∀ before c after, h = before ++ c :: after →
      BinsFit W draws (images mmh3 p before) (project mmh3 p (instanceOf c))) :
    calls (detector32 conv mmh3 npLog2) (XStream.new p W draws) h =
      calls (detector mmh3 npLog2) (XStream.new p W draws) h := by
  induction h using List.reverseRecOn with
  | nil => rfl
  | append_singleton h c ih =>
    have ih := ih (fun before c' after e => hb before c' (after ++ [c]) (by rw [e]; simp))
    have hfit := hb h c [] rfl
    have hinv := inv_calls (β := β) mmh3 npLog2 p W hW draws h
    rw [calls_append, calls_append, ih]
    generalize (calls (detector mmh3 npLog2) (XStream.new p W draws) h).2 = s at hinv ⊢
    suffices e : call (detector32 conv mmh3 npLog2) s c = call (detector mmh3 npLog2) s c by
      simp only [calls, e]
    have hδ : ∀ f : Fin k, currentWidth W (images mmh3 p h) f ≠ (0 : ℝ) := fun f => (widthAt_pos W _ _ f).ne'
    have chain : ∀ ch ∈ s.chains, ∃ draw ∈ draws, ch.fs = draw.fs ∧
        ch.deltamax = currentWidth W (images mmh3 p h) ∧
        ch.shift = fun f => draw.randArr f * currentWidth W (images mmh3 p h) f := by
      intro ch hch
      obtain ⟨i, hi⟩ := List.mem_iff_getElem?.1 hch
      obtain ⟨draw, hd, hg⟩ := forall₂_getElem? (R := fun c draw => _) hinv.chains.flip i ch hi
      exact ⟨draw, List.mem_of_getElem? hd, hg.fs, hg.delta, hg.shift⟩
    cases c with
    | fit x y =>
      have hm : s.chains.map (fitChain32 conv (project mmh3 s.streamhash x)) =
          s.chains.map (fitChain (project mmh3 s.streamhash x)) := by
        refine List.map_congr_left fun ch hch => ?_
        obtain ⟨draw, hd, h1, h2, h3⟩ := chain ch hch
        have := fitLoop32_eq conv hc draw.randArr _ (project mmh3 p x) hδ ch.fs [] ch h2 h3 (by
          rw [h1]; simpa [instanceOf] using hfit draw hd)
        rw [pre_nil] at this
        rw [hinv.hash]
        exact this
      have e : fitPartial32 conv mmh3 s x = fitPartial mmh3 s x := by
        simp only [fitPartial32, fitPartial, hm]
        rfl
      simp only [call, detector32, detector, e]
    | score x =>
      have hm : ∀ (chs : List (XsChain ℝ k)), (∀ ch ∈ chs, ch ∈ s.chains) → ∀ acc,
          scoreChains32 conv npLog2 (project mmh3 s.streamhash x) chs acc =
            scoreChains npLog2 (project mmh3 s.streamhash x) chs acc := by
        intro chs
        induction chs with
        | nil => intros; rfl
        | cons ch chs ihc =>
          intro hsub acc
          obtain ⟨draw, hd, h1, h2, h3⟩ := chain ch (hsub ch (by simp))
          have := bincountLoop32_eq conv hc draw.randArr _ (project mmh3 p x) hδ ch h2 h3 ch.fs [] (by
            rw [h1]; simpa [instanceOf] using hfit draw hd)
          rw [pre_nil] at this
          have e : scoreChain32 conv npLog2 (project mmh3 s.streamhash x) ch =
              scoreChain npLog2 (project mmh3 s.streamhash x) ch := by
            unfold scoreChain32 scoreChain bincount32 bincount
            rw [hinv.hash]
            simp only [List.length_nil] at this
            rw [this]
          unfold scoreChains32 scoreChains
          rw [e]
          cases scoreChain npLog2 (project mmh3 s.streamhash x) ch with
          | error e => rfl
          | ok v => exact ihc (fun c' hc' => hsub c' (by simp [hc'])) _
      have e : scorePartial32 conv mmh3 npLog2 s x = scorePartial mmh3 npLog2 s x := by
        simp only [scorePartial32, scorePartial, hm s.chains (fun _ h => h)]
        rfl
      simp only [call, detector32, detector, e]

end

/-- A sufficient condition that does not depend on the history: shifts in [0, 1), and images of size at
most `B` with `10000 * 2 ^ (uses - 1) * B ≤ 2 ^ 31 - 1` for the greatest number of uses of a feature. -/
theorem C141_bins_fit {k : ℕ} (W : ℕ) (draws : List (XsDraw ℝ k)) (uses : ℕ)
    (hu : ∀ draw ∈ draws, ∀ f, draw.fs.count f ≤ uses)
    (hr : ∀ draw ∈ draws, ∀ f, 0 ≤ draw.randArr f ∧ draw.randArr f < 1)
    (B : ℝ) (hB : 10000 * 2 ^ (uses - 1) * B ≤ 2 ^ 31 - 1) (xs : List (Fin k → ℝ)) (X : Fin k → ℝ)
    (hX : ∀ f, |X f| ≤ B) : BinsFit W draws xs X := by
  intro draw hdraw d hd f
  unfold halfSpaceBin
  split
  · norm_num
  · have hcount : (draw.fs.take (d + 1)).count f ≤ uses :=
      ((List.take_sublist _ _).count_le f).trans (hu draw hdraw f)
    obtain ⟨r0, r1⟩ := hr draw hdraw f
    have hw : 1 / 10000 < currentWidth W xs f := by
      unfold currentWidth
      cases xs.length / W with
      | zero => norm_num [widthAt]
      | succ j =>
        simp only [widthAt, binWidth]
        split
        · norm_num
        · rename_i hlt; exact not_le.1 hlt
    generalize currentWidth W xs f = δ at hw
    have hδ : 0 < δ := lt_trans (by norm_num) hw
    have hpow : (2 : ℝ) ^ ((draw.fs.take (d + 1)).count f - 1) ≤ 2 ^ (uses - 1) :=
      pow_le_pow_right₀ (by norm_num) (by omega)
    have hq : (0 : ℝ) ≤ 2 ^ ((draw.fs.take (d + 1)).count f - 1) := by positivity
    generalize (2 : ℝ) ^ ((draw.fs.take (d + 1)).count f - 1) = q at hpow hq ⊢
    have hB0 : 0 ≤ B := (abs_nonneg _).trans (hX f)
    have h1 : |X f / δ| ≤ 10000 * B := by
      rw [abs_div, abs_of_pos hδ, div_le_iff₀ hδ]
      have := hX f
      nlinarith
    have h2 : |q * (X f / δ)| ≤ 2 ^ 31 - 1 := by
      rw [abs_mul, abs_of_nonneg hq]
      calc q * |X f / δ| ≤ 2 ^ (uses - 1) * (10000 * B) :=
            mul_le_mul hpow h1 (abs_nonneg _) (by positivity)
        _ ≤ _ := by linarith
    obtain ⟨h3, h4⟩ := abs_le.1 h2
    constructor
    · rw [Int.le_floor]; push_cast; linarith
    · rw [Int.floor_lt]; push_cast; linarith

/-- A case: the default projector for one component; data up to 1000 with a feature used twice. -/
example : BinsFit 25 [(⟨[0, 0], fun _ => 1 / 2⟩ : XsDraw ℝ 1)] [] (fun _ => 1000) := by
  refine C141_bins_fit 25 _ 2 ?_ ?_ 1000 (by norm_num) _ _ ?_
  · intro draw hd f
    simp at hd; subst hd
    rw [Subsingleton.elim f 0]
    decide
  · intro draw hd f
    simp at hd; subst hd
    norm_num
  · intro f; norm_num

/-- The hypothesis of the refutation is met: with a hash value of 0 the entry is `-√3`. -/
example : ∃ p, Streamhash.new Real.sqrt 1 (1 / 3) = .ok p ∧
    Streamhash.hashString (fun _ _ => 0) p 0 (toString 0) ≠ 0 := by
  refine ⟨⟨1, √(1 / (1 / 3)) / √((1 : ℕ) : ℝ), 1 / 3⟩, ?_, ?_⟩
  · unfold Streamhash.new
    rw [if_neg (by norm_num)]
  · simp [Streamhash.hashString]
    rw [if_pos (by norm_num)]
    simp

end Pysad
