import Verif.Props.KnnCadScore

/-! A run of `KNNCAD` with an alarm, to which C61-C64 and C92 apply. -/

namespace Pysad

open Spec

/-- A concrete run: period 48, zeros with ones at records 1 and 78, and a metric that looks
at the oldest value of a segment only; record 96 is an alarm, followed by `48 / 5 = 9`
scores of 1/2 and the true score again. -/
theorem knn_alarm_run : (calls (KnnCad.detector (β := Unit) fun _ => some [[1]]) (KnnCad.new 48)
    (((List.range 96).map fun i => .fit [if i = 0 ∨ i = 77 then (1 : ℚ) else 0] none)
      ++ List.replicate 11 (.score []))).1.drop 96
      = [.value 1] ++ List.replicate 9 (.value (1 / 2)) ++ [.value 1] := by
  decide +kernel

/-- The stream of that run. -/
def knnStream : List ℚ := (List.range 96).map fun i => if i = 0 ∨ i = 77 then 1 else 0

/-- C92 applies to the run: before the first score there was no alarm, so that the 1 it returned
is the conformal score of the stream. -/
example : conformalScore (fun _ => some [[1]]) 48 knnStream = 1 := by
  have hf : ∀ l : List ℚ, firstValues (l.map fun x => (.fit [x] none : Call (List ℚ) Unit)) = l := by
    intro l
    induction l with
    | nil => rfl
    | cons a l ih =>
      simp only [firstValues, List.map_cons, fitted, List.filterMap_cons, List.head?_cons] at ih ⊢
      rw [ih]
  have hs : ∀ (l : List ℚ) (as : List (Answer ℚ)),
      scoreAnswers (l.map fun x => (.fit [x] none : Call (List ℚ) Unit)) as = [] := by
    intro l
    induction l with
    | nil => intro as; cases as <;> rfl
    | cons a l ih =>
      intro as
      cases as with
      | nil => rfl
      | cons b as => exact ih as
  have hfirst : (calls (KnnCad.detector (β := Unit) fun _ => some [[1]]) (KnnCad.new 48)
      ((knnStream.map fun x => .fit [x] none) ++ [.score []])).1.drop 96 = [.value 1] := by
    decide +kernel
  have h := (C92_knncad_score (β := Unit) (fun _ => some [[(1 : ℚ)]]) 48 le_rfl
    (knnStream.map fun x => .fit [x] none) (by rw [hf]; simp [knnStream]) []).2
    (by rw [hs]; simp)
  rw [hf] at h
  rw [calls_append, List.drop_append_of_le_length (by simp [calls_length, knnStream]),
    List.drop_eq_nil_of_le (by simp [calls_length, knnStream]), List.nil_append] at hfirst
  simp only [calls, call] at hfirst
  generalize (KnnCad.detector (β := Unit) fun _ => some [[(1 : ℚ)]]).scorePartial _ [] = r at h hfirst
  cases r with
  | ok v s =>
    simp only [Res.out_ok, Except.ok.injEq] at h
    simp only [List.cons.injEq, Answer.value.injEq, and_true] at hfirst
    rw [← h, hfirst]
  | err e s => simp at h

end Pysad
