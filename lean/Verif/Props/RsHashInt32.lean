import Verif.Model.RsHashInt32
import Verif.Props.RsHash
import Mathlib.Data.Fintype.EquivFin
import Mathlib.Order.Interval.Finset.Defs
import Mathlib.Data.Int.Interval

/-! Property C125: RSHash stores its cells as 32-bit integers. -/

namespace Pysad

open Spec

/-- A conversion to 32-bit integers: right for the numbers of the type, and always one of them. -/
structure Spec.ConvertsInt32 (conv : ℤ → ℤ) : Prop where
  range : ∀ z, -2 ^ 31 ≤ conv z ∧ conv z < 2 ^ 31
  exact : ∀ z, -2 ^ 31 ≤ z → z < 2 ^ 31 → conv z = z

/-- The full claim of **C125**: with 32-bit cells RSHash answers as with unbounded ones. -/
def C125_statement (conv : ℤ → ℤ) : Prop :=
  ∀ (dim : ℕ) (comps : List (RsComponent ℝ dim)) (sp : ℕ) (decay : ℝ) (nh : ℕ)
    (cs : List (Call (Fin dim → ℝ) Unit)),
    (calls (RsHash.detector32 conv realPow2 Real.log) (RsHash.new comps sp decay nh) cs).1 =
      (calls (RsHash.detector realPow2 Real.log) (RsHash.new comps sp decay nh) cs).1

/-- **C125 is false** whatever the conversion does with numbers that are too large: some two different
cells become one. -/
theorem C125_int32_refuted (conv : ℤ → ℤ) (hc : ConvertsInt32 conv) : ¬ C125_statement conv := by
  intro h
  obtain ⟨a, b, hne, hab⟩ := Finite.exists_ne_map_eq_of_infinite
    (fun z : ℤ => (⟨conv z, Finset.mem_Ico.2 (hc.range z)⟩ : Finset.Ico (-2 ^ 31 : ℤ) (2 ^ 31)))
  have hab : conv a = conv b := congrArg Subtype.val hab
  have := h 1 [⟨[(0, 0)], 1⟩] 1 0 1 [.fit (fun _ => (a : ℝ)) none, .fit (fun _ => (b : ℝ)) none, .score fun _ => 0]
  simp [calls, call, RsHash.detector32, RsHash.detector, RsHash.fitPartial32, RsHash.fitPartial, RsHash.new,
    RsHash.components32, RsHash.components, RsHash.visit, RsHash.cell32, RsHash.cell, RsHash.pyMin, hab, hne.symm,
    Function.update, realPow2] at this
  norm_num at this

/-- All cells of the instance have coordinates (and component numbers) that are 32-bit integers. -/
def Spec.CellsFit {dim : ℕ} (comps : List (RsComponent ℝ dim)) (x : Fin dim → ℝ) : Prop :=
  comps.length < 2 ^ 31 ∧ ∀ c ∈ comps, ∀ p ∈ c.dims,
    -2 ^ 31 ≤ ⌊(x p.1 + p.2) / c.f⌋ ∧ ⌊(x p.1 + p.2) / c.f⌋ < 2 ^ 31

theorem components32_eq {dim : ℕ} (conv : ℤ → ℤ) (hc : ConvertsInt32 conv) (decay : ℝ) (index : ℤ)
    (x : Fin dim → ℝ) (cs : List (RsComponent ℝ dim)) (r : ℕ) (hr : r + cs.length < 2 ^ 31)
    (hx : ∀ c ∈ cs, ∀ p ∈ c.dims,
      -2 ^ 31 ≤ ⌊(x p.1 + p.2) / c.f⌋ ∧ ⌊(x p.1 + p.2) / c.f⌋ < 2 ^ 31) (acc : ℝ) (sk : List (RsSketch ℝ)) :
    RsHash.components32 conv realPow2 Real.log decay index x r cs acc sk =
      RsHash.components realPow2 Real.log decay index x r cs acc sk := by
  induction cs generalizing r acc sk with
  | nil => rfl
  | cons c cs ih =>
    have e : RsHash.cell32 conv r c x = RsHash.cell r c x := by
      unfold RsHash.cell32 RsHash.cell
      rw [List.map_cons, List.map_map]
      congr 1
      · apply hc.exact <;> simp at hr ⊢ <;> omega
      · refine List.map_congr_left fun p hp => ?_
        obtain ⟨h1, h2⟩ := hx c (by simp) p hp
        exact hc.exact _ h1 h2
    unfold RsHash.components32 RsHash.components
    rw [e]
    dsimp only
    split
    · rename_i h; rw [h]
    · rename_i h
      rw [h]
      exact ih (r + 1) (by simp at hr; omega) (fun c' h' => hx c' (by simp [h'])) _ _

/-- **C125**, partial: as long as all cells of the fitted instances have coordinates within 32 bits,
all answers are those with unbounded cells (so that C72 describes them). -/
theorem C125_int32_partial (conv : ℤ → ℤ) (hc : ConvertsInt32 conv) {dim : ℕ} {β : Type*}
    (comps : List (RsComponent ℝ dim)) (sp : ℕ) (decay : ℝ) (nh : ℕ)
    (cs : List (Call (Fin dim → ℝ) β)) (hf : ∀ x ∈ fitted cs, CellsFit comps x) :
    calls (RsHash.detector32 conv realPow2 Real.log) (RsHash.new comps sp decay nh) cs =
      calls (RsHash.detector realPow2 Real.log) (RsHash.new comps sp decay nh) cs := by
  suffices h : ∀ (cs : List (Call (Fin dim → ℝ) β)) (s : RsHashState ℝ dim), s.components = comps →
      (∀ x ∈ fitted cs, CellsFit comps x) →
      calls (RsHash.detector32 conv realPow2 Real.log) s cs =
        calls (RsHash.detector realPow2 Real.log) s cs from h cs _ rfl hf
  intro cs
  induction cs with
  | nil => intro s _ _; rfl
  | cons c cs ih =>
    intro s hs hf
    have hcomp : ∀ (x : Fin dim → ℝ), (RsHash.fitPartial realPow2 Real.log s x).state.components = comps := by
      intro x
      unfold RsHash.fitPartial
      split
      · exact hs
      · dsimp only; split <;> exact hs
    have e : call (RsHash.detector32 conv realPow2 Real.log) s c =
        call (RsHash.detector realPow2 Real.log) s c := by
      cases c with
      | score x => rfl
      | fit x y =>
        obtain ⟨h1, h2⟩ := hf x (by simp [fitted])
        have : RsHash.fitPartial32 conv realPow2 Real.log s x = RsHash.fitPartial realPow2 Real.log s x := by
          unfold RsHash.fitPartial32 RsHash.fitPartial
          rw [components32_eq conv hc _ _ _ _ 0 (by rw [hs]; omega) (by rw [hs]; exact h2)]
          rfl
        simp only [call, RsHash.detector32, RsHash.detector, this]
    have e2 : (call (RsHash.detector (β := β) realPow2 Real.log) s c).2.components = comps := by
      cases c with
      | score x => exact hs
      | fit x y =>
        have := hcomp x
        simp only [call, RsHash.detector]
        cases hh : RsHash.fitPartial realPow2 Real.log s x <;> rw [hh] at this <;> exact this
    simp only [calls, e]
    rw [ih _ e2 (fun x hx => hf x (by cases c <;> simp [fitted] at hx ⊢ <;> simp [hx]))]

/-- Conversions exist: keep what fits, and everything else becomes the least number (as on x86). -/
def convX86 (z : ℤ) : ℤ := if -2 ^ 31 ≤ z ∧ z < 2 ^ 31 then z else -2 ^ 31

theorem convX86_int32 : ConvertsInt32 convX86 where
  range z := by unfold convX86; split <;> omega
  exact z h1 h2 := by unfold convX86; rw [if_pos ⟨h1, h2⟩]

/-- The usual case: coordinates in [0, 1], shifts below the width, widths of at least 1/1000. -/
example : CellsFit [(⟨[(0, 1 / 1000)], 1 / 100⟩ : RsComponent ℝ 1)] (fun _ => 1) := by
  refine ⟨by simp, ?_⟩
  intro c hc p hp
  simp at hc; subst hc
  simp at hp; subst hp
  constructor
  · rw [Int.le_floor]; norm_num
  · rw [Int.floor_lt]; norm_num

end Pysad
