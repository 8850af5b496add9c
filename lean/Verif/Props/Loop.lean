import Verif.Model.Loop
import Verif.Spec.Calls

/-! C108: `LocalOutlierProbability` and the stream. -/

namespace Pysad
open Spec

/-- Does the object learn: are there two ways to fit it after which some instance is answered
differently? -/
def Spec.Learns {σ α β S : Type*} (d : Detector σ α β S) (s : σ) : Prop :=
  ∃ (fs fs' : List (α × Option β)) (x : α),
    (call d (calls d s (fs.map fun p => .fit p.1 p.2)).2 (.score x)).1 ≠
      (call d (calls d s (fs'.map fun p => .fit p.1 p.2)).2 (.score x)).1

/-- The full claim of **C108**, in its weakest form: some `LocalOutlierProbability` object, with
some implementation of the batch method, learns. -/
def C108_loop_statement : Prop :=
  ∃ (M : Type) (lib : LoopLibrary M ℕ ℕ) (D : List ℕ) (n extent : ℕ) (s : M),
    localOutlierProbability.new lib D n extent = .ok s ∧
    Learns (localOutlierProbability (β := ℕ) lib) s

/-- **C108, what holds.** The score calls of every history are answered as the batch object,
trained on the initial data, answers these instances one after the other; fits are accepted and
have no effect at all. (Missing: learning from the stream, see `C108_loop_refuted`.) -/
theorem C108_loop_partial {M α β S : Type*} (lib : LoopLibrary M α S) (s : M)
    (cs : List (Call α β)) :
    let kept := cs.filter Call.isScore
    scoreAnswers cs (calls (localOutlierProbability lib) s cs).1
      = (calls (localOutlierProbability (β := β) lib) s kept).1 ∧
    (∀ p ∈ cs.zip (calls (localOutlierProbability lib) s cs).1, p.1.isScore = false →
      p.2 = .done) ∧
    (calls (localOutlierProbability lib) s cs).2
      = (calls (localOutlierProbability (β := β) lib) s kept).2 := by
  induction cs generalizing s with
  | nil => simp [calls, scoreAnswers]
  | cons c cs ih =>
    cases c with
    | fit x y =>
      obtain ⟨h1, h2, h3⟩ := ih s
      refine ⟨?_, ?_, ?_⟩
      · simpa [calls, call, localOutlierProbability, scoreAnswers, Call.isScore] using h1
      · intro p hp
        simp only [calls, call, localOutlierProbability, List.zip_cons_cons, List.mem_cons] at hp
        rcases hp with rfl | hp
        · intro _; rfl
        · exact h2 p hp
      · simpa [calls, call, localOutlierProbability, Call.isScore] using h3
    | score x =>
      obtain ⟨h1, h2, h3⟩ := ih (call (localOutlierProbability (β := β) lib) s (.score x)).2
      refine ⟨?_, ?_, ?_⟩
      · simp only [calls, scoreAnswers, List.filter_cons, Call.isScore, if_true, h1]
      · intro p hp
        simp only [calls, List.zip_cons_cons, List.mem_cons] at hp
        rcases hp with rfl | hp
        · intro h; simp [Call.isScore] at h
        · exact h2 p hp
      · simpa only [calls, List.filter_cons, Call.isScore, if_true] using h3

/-- What the batch object answers when it is asked for the instances one after the other. -/
def Spec.streamAnswers {M α S : Type*} (lib : LoopLibrary M α S) : M → List α → List (Answer S)
  | _, [] => []
  | m, x :: xs =>
    match lib.stream m x with
    | .ok v m' => .value v :: streamAnswers lib m' xs
    | .err e m' => .raised e :: streamAnswers lib m' xs

/-- The instances scored by a history. -/
def Spec.scored {α β : Type*} : List (Call α β) → List α
  | [] => []
  | .fit _ _ :: cs => scored cs
  | .score x :: cs => x :: scored cs

/-- **C108, what holds, from the constructor on.** The scores of every history are those of the
batch object fitted to the initial data with the given extent and number of neighbours. -/
theorem C108_loop_constructed_partial {M α β S : Type*} (lib : LoopLibrary M α S) (D : List α)
    (n extent : ℕ) (m : M) (h : lib.fit D extent n = .ok m) :
    ∃ s, localOutlierProbability.new lib D n extent = .ok s ∧
      ∀ cs : List (Call α β),
        scoreAnswers cs (calls (localOutlierProbability lib) s cs).1
          = streamAnswers lib m (scored cs) := by
  refine ⟨m, h, ?_⟩
  intro cs
  clear h
  induction cs generalizing m with
  | nil => rfl
  | cons c cs ih =>
    cases c with
    | fit x y => exact ih m
    | score x =>
      simp only [calls, scoreAnswers, scored, streamAnswers]
      rw [ih]
      simp only [call, localOutlierProbability]
      cases lib.stream m x <;> rfl

/-- **C108 is false**: `fit_partial` does nothing. -/
theorem C108_loop_refuted : ¬ C108_loop_statement := by
  rintro ⟨M, lib, D, n, extent, s, -, fs, fs', x, h⟩
  have key : ∀ fs : List (ℕ × Option ℕ),
      (calls (localOutlierProbability (β := ℕ) lib) s (fs.map fun p => .fit p.1 p.2)).2 = s := by
    intro fs
    rw [(C108_loop_partial lib s _).2.2]
    have : (fs.map fun p => (Call.fit p.1 p.2 : Call ℕ ℕ)).filter Call.isScore = [] := by
      induction fs with
      | nil => rfl
      | cons p fs ih => simpa [Call.isScore] using ih
    rw [this]; rfl
  rw [key, key] at h
  exact h rfl

/-- A library for the example: the object remembers its data and counts the requests. -/
def countingLibrary : LoopLibrary (List ℕ × ℕ) ℕ ℕ where
  fit D _ _ := .ok (D, 0)
  stream m x := .ok (m.1.length + m.2 + x) (m.1, m.2 + 1)

example : (calls (localOutlierProbability (β := ℕ) countingLibrary) ([1, 2], 0)
    [.score 5, .fit 9 none, .fit 8 (some 1), .score 5]).1 = [.value 7, .done, .done, .value 8] := by
  decide

example : streamAnswers countingLibrary ([1, 2], 0) [5, 5] = [.value 7, .value 8] := by decide

end Pysad
