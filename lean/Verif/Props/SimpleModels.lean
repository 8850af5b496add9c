import Verif.Model.SimpleModels
import Verif.Proofs.Calls
import Verif.Proofs.Meters
import Verif.Proofs.Moments
import Verif.Props.ModifiedStl

/-! Properties C50, C59, C60, C67, C68: the small detectors. -/

namespace Pysad

open Spec

/-! ### C50 -/

/-- The fraction of the given instances that are closer to `x` than `r`; 0 if there
are none. -/
def Spec.nearFraction {α K : Type*} [Field K] [LinearOrder K] (dist : α → α → K) (r : K)
    (instances : List α) (x : α) : K :=
  if instances = [] then 0
  else (instances.countP (fun w => dist w x < r) : K) / (instances.length : K)

theorem storm_state {α β K : Type*} [Zero K] [NatCast K] [Div K] [LT K] [DecidableLT K]
    (dist : α → α → K) (w : ℕ) (r : K) (cs : List (Call α β)) :
    (calls (exactStorm (β := β) dist) (StormState.new w r) cs).2
      = ⟨r, ⟨w, lastN w (fitted cs)⟩⟩ := by
  refine calls_inv (d := exactStorm (β := β) dist)
    (P := fun cs s => s = (⟨r, ⟨w, lastN w (fitted cs)⟩⟩ : StormState α K)) ?_ _ ?_ cs
  · intro cs s c h
    subst h
    rw [fitted_append]
    cases c with
    | fit x y =>
      simp only [call, exactStorm, fitted]
      congr 1
      rw [lastN_snoc]
      unfold Window.update
      simp only
      split <;> rfl
    | score x =>
      simp only [fitted, List.append_nil, call, exactStorm]
      split <;> rename_i h <;> split at h <;> cases h <;> rfl
  · simp [StormState.new, Window.new, fitted]

section
variable {α β K : Type*} [Field K] [LinearOrder K] (dist : α → α → K)

/-- **C50.** After any history, with `older` the instances fitted so far that are among
the last `w`, the newest excluded: `score_partial(x)` returns the fraction of `older`
closer to `x` than the radius, and changes nothing. -/
theorem C50_storm_score (w : ℕ) (r : K) (cs : List (Call α β)) (x : α) :
    let s := (calls (exactStorm (β := β) dist) (StormState.new w r) cs).2
    let older := (lastN w (fitted cs)).dropLast
    (exactStorm (β := β) dist).scorePartial s x = .ok (nearFraction dist r older x) s := by
  intro s older
  have hs : s = _ := storm_state dist w r cs
  rw [hs]
  simp only [exactStorm, Window.get, nearFraction, List.length_eq_zero_iff, older]
  split
  · rfl
  · rw [← List.countP_eq_length_filter, List.countP_map, List.length_map]
    rfl

/-- **C50.** Scores lie in [0, 1]. -/
theorem C50_storm_range [IsStrictOrderedRing K] (r : K) (older : List α) (x : α) :
    0 ≤ nearFraction dist r older x ∧ nearFraction dist r older x ≤ 1 := by
  unfold nearFraction
  split
  · simp
  · rename_i h
    have hpos : (0 : K) < (older.length : K) := by
      exact_mod_cast List.length_pos_iff.2 h
    refine ⟨by positivity, ?_⟩
    rw [div_le_one hpos]
    exact_mod_cast List.countP_le_length

/-- **C50.** At most `w` instances are stored, whatever the history. -/
theorem C50_storm_memory (w : ℕ) (r : K) (cs : List (Call α β)) :
    (calls (exactStorm (β := β) dist) (StormState.new w r) cs).2.window.get.length ≤ w := by
  rw [storm_state, Window.get, lastN_length]
  omega

/-- **C50.** Two histories that retain the same older instances, in any order, give the
same scores. -/
theorem C50_storm_order (w : ℕ) (r : K) (cs cs' : List (Call α β))
    (h : (lastN w (fitted cs)).dropLast.Perm (lastN w (fitted cs')).dropLast) (x : α) :
    ((exactStorm (β := β) dist).scorePartial
        (calls (exactStorm (β := β) dist) (StormState.new w r) cs).2 x).out
      = ((exactStorm (β := β) dist).scorePartial
        (calls (exactStorm (β := β) dist) (StormState.new w r) cs').2 x).out := by
  rw [C50_storm_score, C50_storm_score]
  simp only [Res.out_ok, nearFraction]
  congr 1
  rw [h.countP_eq, h.length_eq]
  by_cases h0 : (lastN w (fitted cs')).dropLast = []
  · rw [if_pos h0, if_pos (by rw [h0] at h; exact h.eq_nil)]
  · rw [if_neg h0, if_neg (by intro h1; rw [h1] at h; exact h0 h.symm.eq_nil)]

end

/-- One-dimensional data, window 3, radius 2: of the older retained instances 4 and 5,
both are near 5. -/
example : (calls (exactStorm (β := Unit) fun a b : ℚ => |a - b|) (StormState.new 3 2)
    [.fit 1 none, .fit 4 none, .fit 5 none, .fit 9 none, .score 5, .score 6]).1
    = [.done, .done, .done, .done, .value 1, .value (1 / 2)] := by decide +kernel

/-! ### C59 -/

/-- The labels fitted by a history (calls without label are refused). -/
def Spec.labelsOf {α β : Type*} : List (Call α β) → List β
  | [] => []
  | .fit _ (some y) :: cs => y :: labelsOf cs
  | _ :: cs => labelsOf cs

/-- The scores returned so far. -/
def Spec.valuesOf {S : Type*} : List (Answer S) → List S
  | [] => []
  | .value v :: as => v :: valuesOf as
  | _ :: as => valuesOf as

theorem labelsOf_append {α β : Type*} (cs ds : List (Call α β)) :
    labelsOf (cs ++ ds) = labelsOf cs ++ labelsOf ds := by
  induction cs with
  | nil => rfl
  | cons c cs ih =>
    cases c with
    | fit x y => cases y <;> simp [labelsOf, ih]
    | score x => simp [labelsOf, ih]

theorem valuesOf_append {S : Type*} (as bs : List (Answer S)) :
    valuesOf (as ++ bs) = valuesOf as ++ valuesOf bs := by
  induction as with
  | nil => rfl
  | cons a as ih => cases a <;> simp [valuesOf, ih]

theorem perfect_inv {α β : Type*} (cs : List (Call α β)) :
    labelsOf cs = valuesOf (calls (perfectModel α β) [] cs).1 ++ (calls (perfectModel α β) [] cs).2 := by
  induction cs using List.reverseRecOn with
  | nil => rfl
  | append_singleton cs c ih =>
    rw [calls_append, labelsOf_append, ih, valuesOf_append]
    generalize (calls (perfectModel α β) [] cs).2 = s
    cases c with
    | fit x y =>
      cases y with
      | none => simp [calls, call, perfectModel, valuesOf, labelsOf]
      | some y => simp [calls, call, perfectModel, valuesOf, labelsOf]
    | score x =>
      cases s with
      | nil => simp [calls, call, perfectModel, valuesOf, labelsOf]
      | cons y s => simp [calls, call, perfectModel, valuesOf, labelsOf]

/-- **C59.** After any interleaving of fits and scores, with `k` scores returned so far:
these are the first `k` labels fitted, and the next score is the label number `k`
(from 0), or `IndexError` if fewer have been fitted. -/
theorem C59_perfect_fifo {α β : Type*} (cs : List (Call α β)) (x : α) :
    let run := calls (perfectModel α β) [] cs
    let k := (valuesOf run.1).length
    valuesOf run.1 = (labelsOf cs).take k ∧
    (call (perfectModel α β) run.2 (.score x)).1 =
      match (labelsOf cs)[k]? with
      | some y => .value y
      | none => .raised .indexError := by
  intro run k
  have h := perfect_inv cs
  change labelsOf cs = valuesOf run.1 ++ run.2 at h
  rw [h]
  constructor
  · simp [k]
  · rw [List.getElem?_append_right (le_refl _)]
    simp only [k, Nat.sub_self]
    generalize run.2 = s
    cases s <;> rfl

/-- **C59.** A missing label raises `ValueError` and changes nothing. -/
theorem C59_perfect_none {α β : Type*} (s : List β) (x : α) :
    (perfectModel α β).fitPartial s x none = .err .valueError s := rfl

/-- **C59.** `fit_score(X, y)` returns `y`. -/
theorem C59_perfect_fit_score {α β : Type*} (X : List α) (y : List β) (h : X.length = y.length) :
    (perfectModel α β).fitScore [] X (some y) = .ok y [] := by
  unfold Detector.fitScore
  rw [iterate_some X y h, Gen.forEach_ofList]
  induction X generalizing y with
  | nil => cases y with
    | nil => rfl
    | cons _ _ => simp at h
  | cons x X ih =>
    cases y with
    | nil => simp at h
    | cons b y =>
      have := ih y (by simpa using h)
      simp only [pairs, List.map_cons, List.zip_cons_cons, inOrder] at this ⊢
      simp only [Detector.fitScorePartial, perfectModel, Res.bind_ok, List.nil_append,
        pyTail, List.drop_succ_cons, List.drop_zero] at this ⊢
      rw [this]

example : (calls (perfectModel ℕ ℕ) [] [.fit 0 (some 7), .fit 0 none, .fit 1 (some 8), .score 5,
    .score 5, .score 5, .fit 0 (some 9), .score 1]).1
    = [.done, .raised .valueError, .done, .value 7, .value 8, .raised .indexError, .done,
       .value 9] := by decide

/-! ### C60 -/

/-- **C60.** Whatever was fitted or scored before, the null model scores 0.5. -/
theorem C60_null {α β K : Type*} [Field K] (cs : List (Call α β)) (x : α) :
    (call (nullModel α β (K := K)) (calls (nullModel α β (K := K)) () cs).2 (.score x)).1
      = .value (1 / 2) := rfl

/-- The first `n` numbers of a generator. -/
def Spec.stream {G K : Type*} (uniform : G → K × G) (g : G) : ℕ → List K
  | 0 => []
  | n + 1 => (uniform g).1 :: stream uniform (uniform g).2 n

/-- **C60.** The scores of the random model are the successive numbers of the generator:
instances, labels and the placement of the fits are irrelevant. -/
theorem C60_random {α β G K : Type*} (uniform : G → K × G) (g : G) (cs : List (Call α β)) :
    valuesOf (calls (randomModel α β uniform) g cs).1
      = stream uniform g (cs.countP Call.isScore) := by
  induction cs generalizing g with
  | nil => rfl
  | cons c cs ih =>
    cases c with
    | fit x y =>
      simp only [calls, call, randomModel, valuesOf, List.countP_cons, Call.isScore]
      exact ih g
    | score x =>
      simp only [calls, call, randomModel, valuesOf, List.countP_cons, Call.isScore, if_true,
        stream, List.cons.injEq, true_and]
      exact ih _

/-- **C60.** If the generator's numbers lie in [0, 1), so do all scores. -/
theorem C60_random_range {α β G K : Type*} [Field K] [LinearOrder K] (uniform : G → K × G)
    (hu : ∀ g, 0 ≤ (uniform g).1 ∧ (uniform g).1 < 1) (g : G) (cs : List (Call α β)) :
    ∀ v ∈ valuesOf (calls (randomModel α β uniform) g cs).1, 0 ≤ v ∧ v < 1 := by
  rw [C60_random]
  generalize cs.countP Call.isScore = n
  induction n generalizing g with
  | zero => simp [stream]
  | succ n ih =>
    intro v hv
    simp only [stream, List.mem_cons] at hv
    rcases hv with rfl | hv
    · exact hu g
    · exact ih _ v hv

example : (calls (randomModel ℕ ℕ fun g : ℕ => (((g % 3 : ℕ) : ℚ) / 3, g + 1)) 1
    [.score 0, .fit 1 none, .score 5]).1 = [.value (1 / 3), .done, .value (2 / 3)] := by
  decide +kernel

end Pysad
