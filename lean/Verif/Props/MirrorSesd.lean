import Verif.Props.Mirror
import Verif.Props.SesdUnits

/-! **C202** for `SeasonalESD` and `SeasonalHybridESD`. -/

namespace Pysad

open Spec

/-- The decomposition `stl'` finds in the values `b - x` the seasonal component that `stl` finds in the values `x`, with
the opposite sign. -/
def Spec.MirroredSeasons (b : ℝ) (stl stl' : List ℝ → Except PyErr (List ℝ)) : Prop :=
  ∀ l, stl' (l.map fun x => b - x) = (stl l).map fun s => s.map fun x => -x

namespace MirrorSesd

open Mirror SesdUnits

variable (ppf : ℝ → ℤ → ℝ)

theorem median_neg (l : List ℝ) : npMedian (l.map fun x => -x) = (npMedian l).map fun x => -x := by
  rw [npMedian_eq, npMedian_eq, ← Multiset.map_coe]
  have := medianOf_mirror (0 : ℝ) (l : Multiset ℝ)
  simpa only [zero_sub] using this

theorem subtract_mirror (b : ℝ) (X seasonal : List ℝ) :
    ModifiedStl.subtract (X.map fun x => b - x) (seasonal.map fun x => -x) =
      (ModifiedStl.subtract X seasonal).map fun r => r.map fun x => -x := by
  unfold ModifiedStl.subtract
  rw [List.length_map, List.length_map]
  split
  · rfl
  · rw [npMedian_eq, npMedian_eq, ← Multiset.map_coe, medianOf_mirror]
    cases medianOf (X : Multiset ℝ) with
    | none => rfl
    | some μ =>
      simp only [Option.map_some, Except.map]
      congr 1
      rw [List.zipWith_map, List.map_zipWith]
      congr 1
      funext x s
      ring

theorem centerScale_neg (stl : List ℝ → Except PyErr (List ℝ)) (hybrid : Bool) (l : List ℝ) :
    Sesd.centerScale ⟨Real.sqrt, ppf, stl⟩ hybrid (l.map fun x => -x) =
      (Sesd.centerScale ⟨Real.sqrt, ppf, stl⟩ hybrid l).map fun p => (-p.1, p.2) := by
  unfold Sesd.centerScale
  cases hybrid with
  | true =>
    simp only [if_true]
    rw [median_neg]
    cases npMedian l with
    | none => rfl
    | some c =>
      simp only [Option.map_some]
      have e : (l.map fun x => -x).map (fun v => |v - -c|) = l.map fun v => |v - c| := by
        rw [List.map_map]
        apply List.map_congr_left
        intro v _
        simp only [Function.comp]
        rw [← abs_neg]
        congr 1
        ring
      rw [e]
      cases npMedian (l.map fun v => |v - c|) with
      | none => rfl
      | some mad => rfl
  | false =>
    simp only [Bool.false_eq_true, if_false, Except.map]
    have hm : npMean (l.map fun x => -x) = -npMean l := by
      unfold npMean
      rw [List.length_map]
      have : (l.map fun x => -x).sum = -l.sum := by
        induction l with
        | nil => simp
        | cons a l ih => rw [List.map_cons, List.sum_cons, List.sum_cons, ih]; ring
      rw [this, neg_div]
    congr 2
    unfold Sesd.npStd1
    rw [hm, List.length_map, List.map_map]
    congr 4
    funext v
    simp only [Function.comp]
    ring

theorem candidates_neg (stl : List ℝ → Except PyErr (List ℝ)) (hybrid : Bool) (alpha : ℝ) (n : ℕ) :
    ∀ (fuel i : ℕ) (r : List (ℝ × ℕ)),
    Sesd.candidates ⟨Real.sqrt, ppf, stl⟩ hybrid alpha n fuel i (r.map fun p => (-p.1, p.2)) =
      Sesd.candidates ⟨Real.sqrt, ppf, stl⟩ hybrid alpha n fuel i r := by
  intro fuel
  induction fuel with
  | zero => intro i r; rfl
  | succ fuel ih =>
    intro i r
    have e1 : (r.map fun p => ((-p.1, p.2) : ℝ × ℕ)).map Prod.fst = (r.map Prod.fst).map fun x => -x := by
      rw [List.map_map, List.map_map]; rfl
    simp only [Sesd.candidates]
    rw [e1, centerScale_neg]
    cases Sesd.centerScale ⟨Real.sqrt, ppf, stl⟩ hybrid (r.map Prod.fst) with
    | error e => rfl
    | ok cs =>
      simp only [Except.map, Except.bind]
      have e2 : (r.map fun p => ((-p.1, p.2) : ℝ × ℕ)).map (fun p => |p.1 - -cs.1| / cs.2) =
          r.map fun p => |p.1 - cs.1| / cs.2 := by
        rw [List.map_map]
        apply List.map_congr_left
        intro p _
        simp only [Function.comp]
        rw [← abs_neg]
        congr 2
        ring
      rw [e2]
      split
      · rfl
      · cases Sesd.argmax (r.map fun p => |p.1 - cs.1| / cs.2) with
        | error e => rfl
        | ok k =>
          simp only
          rw [List.getElem?_map, List.eraseIdx_map, ih]
          cases r[k]? with
          | none => rfl
          | some p =>
            simp only [Option.map_some]
            cases (r.map fun p => |p.1 - cs.1| / cs.2)[k]? <;> rfl

theorem esd_neg (stl : List ℝ → Except PyErr (List ℝ)) (hybrid : Bool) (m : ℕ) (alpha : ℝ) (r : List ℝ) :
    Sesd.esd ⟨Real.sqrt, ppf, stl⟩ hybrid m alpha (r.map fun x => -x) =
      Sesd.esd ⟨Real.sqrt, ppf, stl⟩ hybrid m alpha r := by
  unfold Sesd.esd
  have e : (r.map fun x => -x).zipIdx = r.zipIdx.map fun p => (-p.1, p.2) := by
    rw [List.zipIdx_map]; rfl
  rw [e, candidates_neg, List.length_map]

end MirrorSesd

open MirrorSesd SesdUnits

/-- **C202.** SeasonalESD and SeasonalHybridESD: if every value `v` is replaced by `b - v`, and the decomposition finds the
mirrored season in the mirrored values, the scores are the same. -/
theorem C202_sesd {β : Type*} {hybrid : Bool} {period W m : ℤ} {alpha : ℝ} {s0 : SesdState ℝ}
    (h0 : Sesd.new hybrid period W m alpha = .ok s0) (ppf : ℝ → ℤ → ℝ) (b : ℝ)
    (stl stl' : List ℝ → Except PyErr (List ℝ)) (hs : MirroredSeasons b stl stl')
    (h : List (Call (NdArray ℝ) β)) (X : NdArray ℝ) :
    sesdScore ppf stl' s0 (h.map (Call.on (entrywise fun x => b - x))) (entrywise (fun x => b - x) X) =
      sesdScore ppf stl s0 h X := by
  rw [score_eq h0, score_eq h0, oneNumber_entrywise]
  cases oneNumber X with
  | none => rfl
  | some v =>
    simp only [Option.map_some]
    have e : (fitted (h.map (Call.on (entrywise fun x => b - x)))).filterMap oneNumber ++ [b - v] =
        ((fitted h).filterMap oneNumber ++ [v]).map fun x => b - x := by
      rw [fitted_on, List.filterMap_map, List.map_append, List.map_filterMap]
      congr 1
      apply List.filterMap_congr
      intro x _
      exact oneNumber_entrywise _ _
    rw [e, lastN_map]
    generalize lastN W.toNat ((fitted h).filterMap oneNumber ++ [v]) = l
    unfold Sesd.scoreWindow
    rw [List.length_map]
    split
    · rfl
    · unfold ModifiedStl.transformWindow
      rw [List.length_map]
      split
      · rfl
      · simp only
        rw [hs l]
        cases stl l with
        | error e => rfl
        | ok seasonal =>
          simp only [Except.map, Except.bind]
          rw [subtract_mirror]
          cases ModifiedStl.subtract l seasonal with
          | error e => rfl
          | ok r =>
            simp only [Except.map]
            rw [esd_env ppf stl stl', esd_neg]

/-- A decomposition that meets the hypothesis of `C202_sesd`: the deviation of each value from the first one. -/
example (b : ℝ) : MirroredSeasons b (fun l => .ok (l.map fun x => x - l.headD 0)) (fun l => .ok (l.map fun x => x - l.headD 0)) := by
  intro l
  cases l with
  | nil => rfl
  | cons a l =>
    simp only [Except.map, List.map_map, List.map_cons, List.headD_cons]
    congr 2
    · ring
    · apply List.map_congr_left
      intro x _
      simp only [Function.comp]
      ring

end Pysad
