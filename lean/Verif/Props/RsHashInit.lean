import Verif.Model.RsHashInit
import Verif.Props.RsHash
import Mathlib.Analysis.SpecialFunctions.Log.Basic
import Mathlib.Analysis.SpecialFunctions.Pow.Real
import Mathlib.Analysis.SpecialFunctions.Sqrt

/-! Property C94: the random subspaces of `RSHash`. -/

namespace Pysad

open Spec

/-- The effective sample size for a decay rate other than 0. -/
noncomputable def Spec.effectiveSize (decay : ℝ) : ℝ := max 1000 (1 / (1 - (2 : ℝ) ^ (-decay)))

/-- A component is sound: it looks at one or more different features, at most as many as there
are and at most `log S / log max(2, 1/f)`, in cells of a width `1/√S ≤ f < 1` shifted by less than
a width. -/
structure Spec.SoundComponent {dim : ℕ} (S : ℝ) (c : RsComponent ℝ dim) : Prop where
  width_ge : 1 / √S ≤ c.f
  width_pos : 0 < c.f
  width_lt : c.f < 1
  dims_ne : c.dims ≠ []
  dims_nodup : (c.dims.map Prod.fst).Nodup
  dims_le : (c.dims.length : ℝ) ≤ Real.log S / Real.log (max 2 (1 / c.f))
  shifts : ∀ p ∈ c.dims, 0 ≤ p.2 ∧ p.2 < c.f

section
variable {G : Type*} {dim : ℕ}

namespace RsHash

theorem effS_eq {decay : ℝ} (hd : decay ≠ 0) :
    effS realPow2 decay = some (effectiveSize decay) := by
  unfold effS
  simp only
  rw [if_neg]
  · rfl
  · intro h
    have h1 : (2 : ℝ) ^ (-decay) = 1 := by
      have : realPow2 (-decay) = 1 := by linarith
      exact this
    have h2 := congrArg Real.log h1
    rw [Real.log_rpow (by norm_num), Real.log_one] at h2
    have h3 : 0 < Real.log 2 := Real.log_pos (by norm_num)
    rcases mul_eq_zero.1 h2 with h | h
    · exact hd (by linarith)
    · linarith

theorem size_ge (decay : ℝ) : 1000 ≤ effectiveSize decay := le_max_left _ _

theorem sqrt_ge {S : ℝ} (hS : 1000 ≤ S) : 31 ≤ √S :=
  Real.le_sqrt_of_sq_le (by linarith)

theorem width_mem {S : ℝ} (hS : 1000 ≤ S) {u : ℝ} (hu : 0 ≤ u ∧ u < 1) :
    1 / √S ≤ width Real.sqrt (some S) u ∧ 0 < width Real.sqrt (some S) u ∧
      width Real.sqrt (some S) u < 1 := by
  have h1 := sqrt_ge hS
  have h2 : 0 < 1 / √S := by positivity
  have h3 : 1 / √S ≤ 1 / 31 := one_div_le_one_div_of_le (by norm_num) h1
  simp only [width]
  have h4 : 0 ≤ (1 - 1 / √S - 1 / √S) * u := mul_nonneg (by linarith) hu.1
  have h5 : (1 - 1 / √S - 1 / √S) * u < 1 - 1 / √S - 1 / √S := by
    have : 0 < 1 - 1 / √S - 1 / √S := by linarith
    nlinarith [hu.2]
  exact ⟨by linarith, by linarith, by linarith⟩

theorem commonTerm_ge {S f : ℝ} (hS : 1000 ≤ S) (hf : 1 / √S ≤ f) :
    2 ≤ commonTerm Real.log S f := by
  have h1 := sqrt_ge hS
  have hs : 0 < √S := by linarith
  have hf0 : 0 < f := lt_of_lt_of_le (by positivity) hf
  have h2 : max 2 (1 / f) ≤ √S := by
    apply max_le (by linarith)
    rw [div_le_iff₀ hf0]
    rw [div_le_iff₀ hs] at hf
    linarith
  have h3 : Real.log (max 2 (1 / f)) ≤ Real.log (√S) :=
    Real.log_le_log (lt_of_lt_of_le (by norm_num) (le_max_left _ _)) h2
  have h4 : 0 < Real.log (max 2 (1 / f)) :=
    Real.log_pos (lt_of_lt_of_le (by norm_num) (le_max_left _ _))
  unfold commonTerm
  rw [le_div_iff₀ h4]
  rw [Real.log_sqrt (by linarith)] at h3
  linarith

theorem numDims_ok (rnd : RsRandom G ℝ dim) (hdim : 1 ≤ dim) {S f : ℝ} (hS : 1000 ≤ S)
    (hf : 1 / √S ≤ f) (g : G) :
    ∃ n g', numDims Real.log rnd (some S) f g = (.ok n, g') ∧ 1 ≤ n ∧
      (n : ℝ) ≤ commonTerm Real.log S f := by
  have hc := commonTerm_ge hS hf
  unfold numDims
  simp only
  split
  · exact ⟨1, g, rfl, le_rfl, by push_cast; linarith⟩
  · rename_i hne
    have hle : ⌊1 + 1 / 2 * commonTerm Real.log S f⌋ ≤ ⌊commonTerm Real.log S f⌋ :=
      Int.floor_le_floor (by linarith)
    obtain ⟨n, g', h1, h2, h3⟩ := rnd.randint_mem g _ _ (lt_of_le_of_ne hle hne)
    rw [h1]
    refine ⟨_, g', rfl, ?_, ?_⟩
    · have : (1 : ℤ) ≤ ⌊1 + 1 / 2 * commonTerm Real.log S f⌋ := by
        rw [Int.le_floor]; push_cast; linarith
      apply le_min (by omega)
      exact_mod_cast hdim
    · have h4 : ((min n (dim : ℤ) : ℤ) : ℝ) ≤ (n : ℝ) := by exact_mod_cast min_le_left _ _
      have h5 : (n : ℝ) ≤ (⌊commonTerm Real.log S f⌋ : ℝ) := by exact_mod_cast h3.le
      exact h4.trans (h5.trans (Int.floor_le _))

/-- The features worth looking at. -/
noncomputable def candidates (bounds : RsBounds ℝ dim) : List (Fin dim) :=
  if 0 < (choiceFeats bounds).length then choiceFeats bounds else List.finRange dim

theorem candidates_nodup (bounds : RsBounds ℝ dim) : (candidates bounds).Nodup := by
  unfold candidates
  split
  · cases bounds with
    | arrays a b => exact (List.nodup_finRange dim).filter _
    | lists a b =>
      simp only [choiceFeats]
      split
      · exact List.nodup_finRange dim
      · exact List.nodup_nil
  · exact List.nodup_finRange dim

theorem candidates_pos (bounds : RsBounds ℝ dim) (hdim : 1 ≤ dim) :
    1 ≤ (candidates bounds).length := by
  unfold candidates
  split
  · assumption
  · simpa using hdim

theorem sampleDim_ok (rnd : RsRandom G ℝ dim) (hdim : 1 ≤ dim) (bounds : RsBounds ℝ dim)
    {S f : ℝ} (hS : 1000 ≤ S) (hf : 1 / √S ≤ f) (g : G) :
    ∃ V g', sampleDim Real.log rnd (some S) bounds f g = (.ok V, g') ∧ V ≠ [] ∧ V.Nodup ∧
      (∀ i ∈ V, i ∈ candidates bounds) ∧ (V.length : ℝ) ≤ commonTerm Real.log S f := by
  obtain ⟨n, g1, h1, h2, h3⟩ := numDims_ok rnd hdim hS hf g
  have e : sampleDim Real.log rnd (some S) bounds f g =
      rnd.choice g1 (candidates bounds) (min n.toNat (candidates bounds).length) := by
    unfold sampleDim candidates
    rw [h1]
    simp only
    split <;> rfl
  obtain ⟨V, g2, h4, h5, h6⟩ := rnd.choice_mem g1 (candidates bounds)
    (min n.toNat (candidates bounds).length) (min_le_right _ _)
  have hp := candidates_pos bounds hdim
  refine ⟨V, g2, by rw [e, h4], ?_, ?_, ?_, ?_⟩
  · intro h0
    rw [h0, List.length_nil] at h5
    omega
  · obtain ⟨l, hl, hs⟩ := h6
    exact hl.nodup_iff.1 ((candidates_nodup bounds).sublist hs)
  · exact fun i hi => h6.subset hi
  · have h7 : (V.length : ℤ) ≤ n := by rw [h5]; omega
    have h8 : (V.length : ℝ) ≤ (n : ℝ) := by exact_mod_cast h7
    exact h8.trans h3

theorem sampleDims_ok (rnd : RsRandom G ℝ dim) (hdim : 1 ≤ dim) (bounds : RsBounds ℝ dim)
    {S : ℝ} (hS : 1000 ≤ S) (fs : List ℝ) : ∀ g : G, (∀ f ∈ fs, 1 / √S ≤ f) →
    ∃ Vs g', sampleDims Real.log rnd (some S) bounds fs g = (.ok Vs, g') ∧
      Vs.length = fs.length ∧ ∀ p ∈ fs.zip Vs, p.2 ≠ [] ∧ p.2.Nodup ∧
      (∀ i ∈ p.2, i ∈ candidates bounds) ∧ (p.2.length : ℝ) ≤ commonTerm Real.log S p.1 := by
  induction fs with
  | nil => intro g _; exact ⟨[], g, rfl, rfl, by simp⟩
  | cons f fs ih =>
    intro g h
    obtain ⟨V, g1, h1, h2⟩ := sampleDim_ok rnd hdim bounds hS (h f (by simp)) g
    obtain ⟨Vs, g2, h3, h4, h5⟩ := ih g1 fun f hf => h f (by simp [hf])
    refine ⟨V :: Vs, g2, ?_, by simp [h4], ?_⟩
    · simp only [sampleDims, h1, h3]
    · intro p hp
      rw [List.zip_cons_cons, List.mem_cons] at hp
      rcases hp with rfl | hp
      · exact h2
      · exact h5 p hp

theorem uniforms_ok (rnd : RsRandom G ℝ dim) (n : ℕ) : ∀ g : G,
    (uniforms rnd n g).1.length = n ∧ ∀ u ∈ (uniforms rnd n g).1, 0 ≤ u ∧ u < 1 := by
  induction n with
  | zero => intro g; exact ⟨rfl, by simp [uniforms]⟩
  | succ n ih =>
    intro g
    obtain ⟨h1, h2⟩ := ih (rnd.uniform g).2
    refine ⟨by simp [uniforms, h1], ?_⟩
    intro u hu
    simp only [uniforms, List.mem_cons] at hu
    rcases hu with rfl | hu
    · exact rnd.uniform_mem g
    · exact h2 u hu

theorem sampleShifts_ok (rnd : RsRandom G ℝ dim) (l : List (ℝ × List (Fin dim))) : ∀ g : G,
    (sampleShifts rnd l g).1.length = l.length ∧
    ∀ c ∈ (sampleShifts rnd l g).1, ∃ p ∈ l, c.f = p.1 ∧ c.dims.map Prod.fst = p.2 ∧
      (0 < c.f → ∀ q ∈ c.dims, 0 ≤ q.2 ∧ q.2 < c.f) := by
  induction l with
  | nil => intro g; exact ⟨rfl, by simp [sampleShifts]⟩
  | cons p l ih =>
    intro g
    obtain ⟨f, V⟩ := p
    obtain ⟨h1, h2⟩ := ih (uniforms rnd V.length g).2
    obtain ⟨h3, h4⟩ := uniforms_ok rnd V.length g
    refine ⟨by simp [sampleShifts, h1], ?_⟩
    intro c hc
    simp only [sampleShifts, List.mem_cons] at hc
    rcases hc with rfl | hc
    · refine ⟨(f, V), by simp, rfl, ?_, ?_⟩
      · simp only
        rw [List.map_fst_zip (by simp [h3])]
      · intro hf q hq
        simp only at hf hq ⊢
        have := (List.of_mem_zip hq).2
        obtain ⟨u, hu, he⟩ := List.mem_map.1 this
        obtain ⟨hu0, hu1⟩ := h4 u hu
        rw [← he]
        constructor
        · have := mul_nonneg hf.le hu0
          linarith
        · have : f * u < f * 1 := mul_lt_mul_of_pos_left hu1 hf
          linarith
    · obtain ⟨p, hp, h⟩ := h2 c hc
      exact ⟨p, by simp [hp], h⟩

end RsHash

open RsHash

/-- **C94.** For every decay rate other than 0, every one or more features and any random draws,
construction succeeds, with the number of components asked for, and every component is sound;
and with the bounds given as arrays, no component looks at a constant feature unless all are. -/
theorem C94_rshash_init (rnd : RsRandom G ℝ dim) (hdim : 1 ≤ dim) (bounds : RsBounds ℝ dim)
    (sp : ℕ) (decay : ℝ) (hd : decay ≠ 0) (m nh : ℕ) (g : G) :
    ∃ comps g', RsHash.init realPow2 Real.log Real.sqrt rnd bounds sp decay m nh g =
        (.ok (RsHash.new comps sp decay nh), g') ∧
      comps.length = m ∧ (∀ c ∈ comps, SoundComponent (effectiveSize decay) c) ∧
      ∀ mins maxs, bounds = .arrays mins maxs → (∃ i, mins i ≠ maxs i) →
        ∀ c ∈ comps, ∀ p ∈ c.dims, mins p.1 ≠ maxs p.1 := by
  have hS := size_ge decay
  obtain ⟨hu1, hu2⟩ := uniforms_ok rnd m g
  set us := uniforms rnd m g with hus
  set fs := us.1.map (width Real.sqrt (some (effectiveSize decay))) with hfs
  have hw : ∀ f ∈ fs, 1 / √(effectiveSize decay) ≤ f ∧ 0 < f ∧ f < 1 := by
    intro f hf
    obtain ⟨u, hu, rfl⟩ := List.mem_map.1 hf
    exact width_mem hS (hu2 u hu)
  obtain ⟨Vs, g1, h1, h2, h3⟩ := sampleDims_ok rnd hdim bounds hS fs us.2 fun f hf => (hw f hf).1
  obtain ⟨h4, h5⟩ := sampleShifts_ok rnd (fs.zip Vs) g1
  refine ⟨(sampleShifts rnd (fs.zip Vs) g1).1, (sampleShifts rnd (fs.zip Vs) g1).2, ?_, ?_, ?_, ?_⟩
  · unfold RsHash.init
    simp only [effS_eq hd]
    rw [← hus, ← hfs, h1]
  · rw [h4, List.length_zip, h2, hfs, List.length_map, hu1, Nat.min_self]
  · intro c hc
    obtain ⟨p, hp, e1, e2, e3⟩ := h5 c hc
    obtain ⟨k1, k2, k3, k4⟩ := h3 p hp
    obtain ⟨w1, w2, w3⟩ := hw p.1 (List.of_mem_zip (show (p.1, p.2) ∈ fs.zip Vs from hp)).1
    have hl : c.dims.length = p.2.length := by rw [← e2, List.length_map]
    refine ⟨by rw [e1]; exact w1, by rw [e1]; exact w2, by rw [e1]; exact w3, ?_, ?_, ?_, ?_⟩
    · intro h0
      rw [h0] at e2
      exact k1 e2.symm
    · rw [e2]; exact k2
    · rw [hl, e1]; exact k4
    · exact e3 (by rw [e1]; exact w2)
  · rintro mins maxs rfl ⟨i, hi⟩ c hc q hq
    obtain ⟨p, hp, -, e2, -⟩ := h5 c hc
    obtain ⟨-, -, k3, -⟩ := h3 p hp
    have hmem : q.1 ∈ candidates (.arrays mins maxs) :=
      k3 q.1 (by rw [← e2]; exact List.mem_map_of_mem hq)
    have hpos : 0 < (choiceFeats (.arrays mins maxs)).length := by
      apply List.length_pos_of_mem (a := i)
      simp [choiceFeats, hi]
    unfold candidates at hmem
    rw [if_pos hpos] at hmem
    simpa [choiceFeats] using hmem

/-- **C94.** So the object built always scores by C72: with at least one component and hash
function, the score of a fitted instance is its mean log decayed count in the sound components. -/
theorem C94_rshash_scores {β : Type*} (rnd : RsRandom G ℝ dim) (hdim : 1 ≤ dim)
    (bounds : RsBounds ℝ dim) (sp : ℕ) (decay : ℝ) (hd : decay ≠ 0) (m nh : ℕ) (hm : 1 ≤ m)
    (hnh : 1 ≤ nh) (g : G) (cs : List (Call (Fin dim → ℝ) β)) (earlier : List (Fin dim → ℝ))
    (x z : Fin dim → ℝ) (hx : fitted cs = earlier ++ [x]) :
    ∃ s₀ g' comps, RsHash.init realPow2 Real.log Real.sqrt rnd bounds sp decay m nh g = (.ok s₀, g') ∧
      (∀ c ∈ comps, SoundComponent (effectiveSize decay) c) ∧
      ((RsHash.detector (β := β) realPow2 Real.log).scorePartial
        (calls (RsHash.detector realPow2 Real.log) s₀ cs).2 z).out =
        .ok (some (rsScore realPow2 Real.log decay comps earlier x)) := by
  obtain ⟨comps, g', h1, h2, h3, -⟩ := C94_rshash_init rnd hdim bounds sp decay hd m nh g
  refine ⟨_, g', comps, h1, h3, ?_⟩
  have hne : comps ≠ [] := by
    intro h0
    rw [h0, List.length_nil] at h2
    omega
  rw [C72_rshash_score comps hne sp decay nh hnh cs earlier x z hx]
  rfl

end

open RsHash

/-- A generator that always draws the least possible, to show that there are some. -/
noncomputable def leastDraws (dim : ℕ) : RsRandom Unit ℝ dim where
  uniform g := (0, g)
  randint g low high := (if low < high then .ok low else .error .valueError, g)
  choice g l n := (if n ≤ l.length then .ok (l.take n) else .error .valueError, g)
  uniform_mem _ := ⟨le_rfl, one_pos⟩
  randint_mem g low high h := ⟨low, g, by simp [h], le_rfl, h⟩
  randint_none g low high h := ⟨g, by simp [not_lt.2 h]⟩
  choice_mem g l n h := ⟨l.take n, g, by simp [h], by simp [h],
    (List.take_sublist n l).subperm⟩
  choice_none g l n h := ⟨g, by simp [not_le.2 h]⟩

/-- With the bounds given as lists, constant features are chosen: feature 0 here, of bounds 0
and 0, by the least draws. -/
theorem C94_rshash_lists : ∃ (bounds : RsBounds ℝ 2) (mins maxs : Fin 2 → ℝ),
    bounds = .lists mins maxs ∧ (∃ i, mins i ≠ maxs i) ∧
    ∃ comps g', RsHash.init realPow2 Real.log Real.sqrt (leastDraws 2) bounds 1000 1 1 1 () =
        (.ok (RsHash.new comps 1000 1 1), g') ∧
      ∃ c ∈ comps, ∃ p ∈ c.dims, mins p.1 = maxs p.1 := by
  let maxs : Fin 2 → ℝ := fun i => if i = 0 then 0 else 1
  have hex : ∃ i, (fun _ => 0 : Fin 2 → ℝ) i ≠ maxs i := ⟨1, by simp [maxs]⟩
  refine ⟨.lists (fun _ => 0) maxs, fun _ => 0, maxs, rfl, hex, ?_⟩
  have hd : (1 : ℝ) ≠ 0 := one_ne_zero
  have hS := size_ge 1
  obtain ⟨n, g', h1, h2, -⟩ := numDims_ok (leastDraws 2) (by norm_num) hS
    (width_mem hS ⟨le_refl (0 : ℝ), one_pos⟩).1 ()
  have hfeats : choiceFeats (.lists (fun _ => 0) maxs) = List.finRange 2 := by
    simp only [choiceFeats]
    rw [if_pos hex]
  have hV : sampleDim Real.log (leastDraws 2) (some (effectiveSize 1)) (.lists (fun _ => 0) maxs)
      (width Real.sqrt (some (effectiveSize 1)) 0) () =
      (.ok ((List.finRange 2).take (min n.toNat 2)), ()) := by
    unfold sampleDim
    rw [h1]
    simp only [hfeats]
    simp [leastDraws]
  have hmem : (0 : Fin 2) ∈ (List.finRange 2).take (min n.toNat 2) := by
    have : 1 ≤ min n.toNat 2 := by omega
    obtain ⟨k, hk⟩ : ∃ k, min n.toNat 2 = k + 1 := ⟨min n.toNat 2 - 1, by omega⟩
    rw [hk, List.finRange_succ, List.take_succ_cons]
    simp
  generalize (List.finRange 2).take (min n.toNat 2) = V at hV hmem
  refine ⟨_, _, by
    unfold RsHash.init
    simp only [effS_eq hd, uniforms, List.map_cons, List.map_nil, sampleDims]
    rw [show ((leastDraws 2).uniform ()).1 = 0 from rfl, hV], ?_⟩
  simp only [List.zip_cons_cons, List.zip_nil_left, sampleShifts, List.mem_singleton,
    exists_eq_left]
  obtain ⟨i, hi⟩ := List.mem_iff_getElem?.1 hmem
  have hlen : (uniforms (leastDraws 2) V.length ()).1.length = V.length :=
    (uniforms_ok (leastDraws 2) V.length ()).1
  have hm2 : (0 : Fin 2) ∈ (V.zip ((uniforms (leastDraws 2) V.length ()).1.map
      fun u => 0 + (width Real.sqrt (some (effectiveSize 1)) 0 - 0) * u)).map Prod.fst := by
    rw [List.map_fst_zip (by simp [hlen])]
    exact hmem
  obtain ⟨p, hp, h0⟩ := List.mem_map.1 hm2
  exact ⟨p, hp, by rw [h0]; simp [maxs]⟩

end Pysad
