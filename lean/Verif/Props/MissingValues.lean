import Verif.Model.MissingValues
import Verif.Props.HstClamped
import Verif.Props.Nan
import Verif.Props.RelativeEntropy

/-! Property C155: what `nan` and infinite values do to detectors. -/

namespace Pysad
open Spec

/-! ### `HalfSpaceTrees` -/

section
variable {K : Type*} [Field K] [LinearOrder K]

/-- The instance in which `nan` and minus infinity are replaced by the lower bound of the feature
and infinity by the upper bound. -/
def Spec.standIn (lo hi : List K) (x : List (Num K)) : List K :=
  x.mapIdx fun j v => match v with
    | .fin a => a
    | .posInf => hi.getD j 0
    | _ => lo.getD j 0

/-- The same call about the replaced instance. -/
def Spec.standInCall {β : Type*} (lo hi : List K) : Call (List (Num K)) β → Call (List K) β
  | .fit x y => .fit (standIn lo hi x) y
  | .score x => .score (standIn lo hi x)

theorem standIn_get (lo hi : List K) (x : List (Num K)) (q : ℕ) :
    (standIn lo hi x)[q]? = x[q]?.map fun v => match v with
      | .fin a => a
      | .posInf => hi.getD q 0
      | _ => lo.getD q 0 := by
  unfold standIn
  rw [List.getElem?_mapIdx]

theorem turn_standIn {lo hi : List K} {q : ℕ} {a b p : K} (ha : lo[q]? = some a)
    (hb : hi[q]? = some b) (h1 : a ≤ p) (h2 : p < b) (v : Num K) :
    (p < match v with
      | .fin a => a
      | .posInf => hi.getD q 0
      | _ => lo.getD q 0) ↔ Num.fin p < v := by
  have e1 : lo.getD q 0 = a := by rw [List.getD_eq_getElem?_getD, ha]; rfl
  have e2 : hi.getD q 0 = b := by rw [List.getD_eq_getElem?_getD, hb]; rfl
  cases v with
  | fin v => show _ ↔ decide (p < v) = true; simp
  | posInf => show _ ↔ true = true; rw [e2]; simpa using h2
  | negInf => show _ ↔ false = true; rw [e1]; simpa using h1
  | nan => show _ ↔ false = true; rw [e1]; simpa using h1

theorem updateMassNum_eq (lo hi : List K) (x : List (Num K)) (D : ℕ) (ref : Bool) (t : HsTree K)
    (h : Inside lo hi t) :
    Hst.updateMassNum D x ref t = Hst.updateMass D (standIn lo hi x) ref t := by
  induction t with
  | nil => rfl
  | node l r rm lm q p k hl hr =>
    obtain ⟨hsplit, il, ir⟩ := h
    rw [Hst.updateMassNum, Hst.updateMass, standIn_get]
    by_cases hk : k < D
    · simp only [hk, if_true]
      cases x[q]? with
      | none => rfl
      | some v =>
        simp only [Option.map_some]
        rcases hsplit with ⟨rfl, rfl⟩ | ⟨a, b, ha, hb, h1, h2⟩
        · simp only [Hst.updateMassNum, Hst.updateMass]
          split_ifs <;> rfl
        · simp only [turn_standIn ha hb h1 h2, hl il, hr ir]
    · simp only [hk, if_false]

theorem scoreTreeNum_eq (lo hi : List K) (x : List (Num K)) (t : HsTree K) (h : Inside lo hi t) :
    Hst.scoreTreeNum x t = Hst.scoreTree (standIn lo hi x) t := by
  induction t with
  | nil => rfl
  | node l r rm lm q p k hl hr =>
    obtain ⟨hsplit, il, ir⟩ := h
    rw [Hst.scoreTreeNum, Hst.scoreTree, standIn_get]
    cases x[q]? with
    | none => rfl
    | some v =>
      simp only [Option.map_some]
      rcases hsplit with ⟨rfl, rfl⟩ | ⟨a, b, ha, hb, h1, h2⟩
      · simp only [Hst.scoreTreeNum, Hst.scoreTree, ite_self]
      · simp only [turn_standIn ha hb h1 h2, hl il, hr ir]

theorem fitRootsNum_eq (lo hi : List K) (x : List (Num K)) (D : ℕ) (ref : Bool)
    (ts : List (HsTree K)) (h : ∀ t ∈ ts, Inside lo hi t) :
    Hst.fitRootsNum D x ref ts = Hst.fitRoots D (standIn lo hi x) ref ts := by
  induction ts with
  | nil => rfl
  | cons t ts ih =>
    rw [Hst.fitRootsNum, Hst.fitRoots, updateMassNum_eq lo hi x D ref t (h t (by simp)),
      ih fun u hu => h u (by simp [hu])]
    rfl

theorem hst_call_standIn {β : Type*} (lo hi : List K) (s : HstState K)
    (hs : ∀ t ∈ s.roots, Inside lo hi t) (c : Call (List (Num K)) β) :
    call (Hst.detectorNum K β) s c = call (Hst.detector K β) s (standInCall lo hi c) := by
  cases c with
  | fit x y =>
    have e : Hst.fitPartialNum s x = Hst.fitPartial s (standIn lo hi x) := by
      simp only [Hst.fitPartialNum, Hst.fitPartial,
        fitRootsNum_eq lo hi x s.maxDepth s.isFirstWindow s.roots hs]
    simp only [call, standInCall, Hst.detectorNum, Hst.detector, e]
  | score x =>
    have key : ∀ (ts : List (HsTree K)), (∀ t ∈ ts, Inside lo hi t) → ∀ acc : K,
        ts.foldlM (fun acc t => (Hst.scoreTreeNum x t).map (acc + ·)) acc =
        ts.foldlM (fun acc t => (Hst.scoreTree (standIn lo hi x) t).map (acc + ·)) acc := by
      intro ts
      induction ts with
      | nil => intro _ _; rfl
      | cons t ts ih =>
        intro ht acc
        rw [List.foldlM_cons, List.foldlM_cons, scoreTreeNum_eq lo hi x t (ht t (by simp))]
        congr 1
        funext a
        exact ih (fun u hu => ht u (by simp [hu])) a
    have e : Hst.scorePartialNum s x = Hst.scorePartial s (standIn lo hi x) := by
      simp only [Hst.scorePartialNum, Hst.scorePartial, key s.roots hs 0]
      rfl
    simp only [call, standInCall, Hst.detectorNum, Hst.detector, e]

theorem hst_calls_standIn {β : Type*} (lo hi : List K) (cs : List (Call (List (Num K)) β))
    (s : HstState K) (hs : ∀ t ∈ s.roots, Inside lo hi t) :
    calls (Hst.detectorNum K β) s cs =
      calls (Hst.detector K β) s (cs.map (standInCall lo hi)) := by
  induction cs generalizing s with
  | nil => rfl
  | cons c cs ih =>
    have h2 := (hst_call_clamped lo hi s hs (standInCall lo hi c)).2
    rw [List.map_cons, calls, calls, hst_call_standIn lo hi s hs c, ih _ h2]

/-- **C155, `HalfSpaceTrees`.** With bounds `lo < hi`, a history of fits and scores gets the answers
and leads to the state that it has if every `nan` and minus infinity is replaced by the lower bound
of its feature and every infinity by the upper bound. -/
theorem C155_hst_partial [IsStrictOrderedRing K] {G β : Type*} (randint : G → ℕ → ℕ × G)
    (lo hi : List K) (hb : ∀ (j : ℕ) (a b : K), lo[j]? = some a → hi[j]? = some b → a < b)
    (w numTrees D : ℕ) (g : G) (s0 : HstState K)
    (h0 : Hst.new randint lo hi w numTrees D g = .ok s0) (cs : List (Call (List (Num K)) β)) :
    calls (Hst.detectorNum K β) s0 cs =
      calls (Hst.detector K β) s0 (cs.map (standInCall lo hi)) :=
  hst_calls_standIn lo hi cs s0 (hst_new_inside randint lo hi hb w numTrees D g s0 h0)

end

/-- A case with a missing value: it is scored like the lower bound. -/
example : ∃ s0, Hst.new (fun (g n : ℕ) => (g % n, g + 1)) [0, 0] [2, (3 : ℚ)] 2 2 2 0 = .ok s0 ∧
    standIn [0, 0] [2, (3 : ℚ)] [.nan, .posInf] = [0, 3] ∧
    (calls (Hst.detectorNum ℚ Unit) s0 [.fit [.nan, .posInf] none, .score [.fin 0, .fin 3],
      .score [.fin 2, .fin 0]]).1 = [.done, .value (-14), .value (-2)] :=
  ⟨_, rfl, by decide +kernel, by decide +kernel⟩

/-! ### `StandardAbsoluteDeviation` -/

section
variable {K : Type*} [Field K] [LinearOrder K]

/-- The detector scores ordinary instances by numbers whatever it was fitted with before, once it
was fitted with one number. -/
def Spec.KeepsAnswering {σ β : Type*} (d : Detector σ (List (Num K)) β (List (Num K))) (s0 : σ) :
    Prop :=
  ∀ (cs : List (Call (List (Num K)) β)) (x : K), (∃ v : K, [Num.fin v] ∈ fitted cs) →
    ∃ r, (d.scorePartial (calls d s0 cs).2 [.fin x]).out = .ok r ∧ ∀ e ∈ r, e.isFinite = true

namespace Missing

theorem sq_cases (x : Num K) : (∃ y, x * x = .fin y ∧ x.isFinite = true) ∨
    ((x * x = .posInf ∨ x * x = .nan) ∧ x.isFinite = false) := by
  cases x with
  | fin x => exact .inl ⟨x * x, rfl, rfl⟩
  | posInf => exact .inr ⟨.inl rfl, rfl⟩
  | negInf => exact .inr ⟨.inl rfl, rfl⟩
  | nan => exact .inr ⟨.inr rfl, rfl⟩

theorem add_up {a b : Num K} (ha : a = .posInf ∨ a = .nan) (hb : b ≠ .negInf) :
    a + b = .posInf ∨ a + b = .nan := by
  change Num.add a b = _ ∨ Num.add a b = _
  rcases ha with rfl | rfl <;> cases b <;> simp_all [Num.add]

theorem up_add {a b : Num K} (ha : b = .posInf ∨ b = .nan) (hb : a ≠ .negInf) :
    a + b = .posInf ∨ a + b = .nan := by
  change Num.add a b = _ ∨ Num.add a b = _
  rcases ha with rfl | rfl <;> cases a <;> simp_all [Num.add]

theorem add_ne {a b : Num K} (ha : a ≠ .negInf) (hb : b ≠ .negInf) : a + b ≠ .negInf := by
  change Num.add a b ≠ _
  cases a <;> cases b <;> simp_all [Num.add]

theorem sq_ne (x : Num K) : x * x ≠ .negInf := by
  rcases sq_cases x with ⟨y, h, -⟩ | ⟨h | h, -⟩ <;> rw [h] <;> simp

/-- Once the sums are not finite, the variance is not a number. -/
theorem variance_nan [IsStrictOrderedRing K] {q a : Num K} {n : ℤ} (hn : 0 < n)
    (hq : q = .posInf ∨ q = .nan) (ha : a.isFinite = false) :
    (q - a * a / ((n : ℤ) : Num K)) / ((n : ℤ) : Num K) = .nan := by
  have hcast : ((n : ℤ) : Num K) = .fin (n : K) := rfl
  have hpos : ¬ (n : K) < 0 := not_lt.2 (by exact_mod_cast hn.le)
  have h1 : a * a / ((n : ℤ) : Num K) = .posInf ∨ a * a / ((n : ℤ) : Num K) = .nan := by
    rcases sq_cases a with ⟨y, -, h⟩ | ⟨h | h, -⟩
    · rw [h] at ha; cases ha
    · rw [h, hcast]
      left
      change (if (n : K) < 0 then Num.negInf else Num.posInf) = Num.posInf
      rw [if_neg hpos]
    · rw [h]; exact .inr rfl
  have h2 : q - a * a / ((n : ℤ) : Num K) = .nan := by
    rcases h1 with h | h <;> rw [h] <;> rcases hq with rfl | rfl <;> rfl
  rw [h2]
  rfl

/-- What the meter of the subtracted statistic has to satisfy after `n` values. -/
structure SubMeter {σ : Type*} (sub : Statistic σ (Num K) (Num K)) (J : ℕ → σ → Prop) : Prop where
  init : J 0 sub.init
  update : ∀ n s x, J n s → J (n + 1) (sub.update s x)
  get : ∀ n s, J (n + 1) s → ∃ v s', sub.get s = .ok v s' ∧ J (n + 1) s'
  raises : ∀ s, J 0 s → (sub.get s).state = s ∨ J 0 (sub.get s).state

theorem average_sub : SubMeter (averageMeter (Num K)) fun n s => s.numItems = n where
  init := rfl
  update n s x h := by
    change s.numItems + 1 = _
    rw [h]; push_cast; ring
  get n s h := by
    refine ⟨s.sum / (s.numItems : Num K), s, ?_, h⟩
    change (if s.numItems = 0 then _ else _) = _
    rw [if_neg (by rw [h]; push_cast; omega)]
  raises s h := by
    left
    change (if s.numItems = 0 then Res.err _ s else _).state = s
    rw [if_pos (by rw [h]; rfl)]
    rfl

theorem median_sub : SubMeter (medianMeter (Num K))
    fun n s => s.numItems = n ∧ s.lst.length = n where
  init := ⟨rfl, rfl⟩
  update n s x h := by
    refine ⟨?_, ?_⟩
    · change s.numItems + 1 = _
      rw [h.1]; push_cast; ring
    · change (heappush s.lst x).length = _
      have hsd : ∀ (pos : ℕ) (l : List (Num K)) (y : Num K), (siftdown l y pos).length = l.length := by
        intro pos
        induction pos using Nat.strong_induction_on with
        | _ pos ih =>
          intro l y
          rw [siftdown]
          split
          · simp
          · split
            · simp
            · split
              · rw [ih _ (by omega)]; simp
              · simp
      rw [heappush, hsd]
      simp [h.2]
  get n s h := by
    have hl : (pySorted s.lst).length = n + 1 := by
      rw [pySorted, List.length_insertionSort, h.2]
    have hidx : ∀ i : ℤ, 0 ≤ i → i < n + 1 → ∃ v, pyIndex (pySorted s.lst) i = .ok v := by
      intro i h0 h1
      unfold pyIndex
      rw [if_neg (by omega), if_neg (by omega)]
      have : i.toNat < (pySorted s.lst).length := by omega
      rw [List.getElem?_eq_getElem this]
      exact ⟨_, rfl⟩
    simp only [medianMeter, h.1]
    by_cases hpar : ((n + 1 : ℕ) : ℤ) % 2 = 0
    · rw [if_pos hpar]
      obtain ⟨a, ea⟩ := hidx (((n + 1 : ℕ) : ℤ) / 2) (by omega) (by omega)
      obtain ⟨b, eb⟩ := hidx (((n + 1 : ℕ) : ℤ) / 2 - 1) (by omega) (by omega)
      simp only [ea, Res.ofExcept_ok, Res.bind_ok, eb]
      exact ⟨_, _, rfl, rfl, hl⟩
    · rw [if_neg hpar]
      obtain ⟨a, ea⟩ := hidx (((n + 1 : ℕ) : ℤ) / 2) (by omega) (by omega)
      simp only [ea, Res.ofExcept_ok]
      exact ⟨_, _, rfl, rfl, hl⟩
  raises s h := by
    right
    obtain ⟨h1, h2⟩ := h
    have : s.lst = [] := List.eq_nil_of_length_eq_zero h2
    obtain ⟨l, m⟩ := s
    simp only at h1 this
    subst h1 this
    exact ⟨rfl, rfl⟩

/-- The state after a history. -/
def SadInv {σ β : Type*} (J : ℕ → σ → Prop) (cs : List (Call (List (Num K)) β))
    (s : SadState σ (Num K)) : Prop :=
  J ((fitted cs).countP fun x => x.length = 1) s.subMeter ∧
  s.varianceMeter.countMeter = ((fitted cs).countP fun x => x.length = 1 : ℕ) ∧
  s.varianceMeter.sumSquaresMeter.sum ≠ .negInf ∧
  ((∃ x : Num K, [x] ∈ fitted cs ∧ x.isFinite = false) →
    s.varianceMeter.sumMeter.sum.isFinite = false ∧
    (s.varianceMeter.sumSquaresMeter.sum = .posInf ∨ s.varianceMeter.sumSquaresMeter.sum = .nan))

theorem sad_inv [IsStrictOrderedRing K] {σ β : Type*} {sub : Statistic σ (Num K) (Num K)}
    {J : ℕ → σ → Prop} (hJ : SubMeter sub J) (sqrt : K → K) (absolute : Bool)
    (cs : List (Call (List (Num K)) β)) :
    SadInv J cs (calls (standardAbsoluteDeviationNum sqrt sub)
      (SadState.newNum sub absolute) cs).2 := by
  refine calls_inv (d := standardAbsoluteDeviationNum (β := β) sqrt sub)
    (P := fun cs (s : SadState σ (Num K)) => SadInv J cs s) ?_ _ ?_ cs
  · intro cs s c ⟨h1, h2, h3, h4⟩
    cases c with
    | fit X y =>
      have hcase : (∃ x, X = [x]) ∨ X.length ≠ 1 := by
        rcases X with _ | ⟨x, _ | ⟨y, X⟩⟩ <;> simp
      rcases hcase with ⟨x, rfl⟩ | hX
      · refine ⟨?_, ?_, ?_, ?_⟩
        · have := hJ.update _ _ x h1
          simpa [call, standardAbsoluteDeviationNum, fitted_append, fitted, List.countP_append]
            using this
        · change s.varianceMeter.countMeter + 1 = _
          rw [h2, fitted_append]
          simp [fitted, List.countP_append]
        · exact add_ne h3 (sq_ne x)
        · rintro ⟨z, hz, hf⟩
          change (s.varianceMeter.sumMeter.sum + x).isFinite = false ∧
            (s.varianceMeter.sumSquaresMeter.sum + x * x = .posInf ∨
              s.varianceMeter.sumSquaresMeter.sum + x * x = .nan)
          rw [fitted_append, List.mem_append] at hz
          rcases hz with hz | hz
          · obtain ⟨g1, g2⟩ := h4 ⟨z, hz, hf⟩
            exact ⟨Num.add_not_finite (.inl g1), add_up g2 (sq_ne x)⟩
          · simp only [fitted, List.mem_singleton, List.cons.injEq, and_true] at hz
            subst hz
            refine ⟨Num.add_not_finite (.inr hf), up_add ?_ h3⟩
            rcases sq_cases z with ⟨y, -, h⟩ | ⟨h, -⟩
            · rw [h] at hf; cases hf
            · exact h
      · have hs : (call (standardAbsoluteDeviationNum (β := β) sqrt sub) s (.fit X y)).2 = s := by
          rcases X with _ | ⟨x, _ | ⟨y, X⟩⟩
          · rfl
          · simp at hX
          · rfl
        rw [hs]
        unfold SadInv
        rw [fitted_append]
        simp only [fitted, List.countP_append, List.countP_singleton, decide_eq_true_eq, hX,
          if_false, Nat.add_zero]
        refine ⟨h1, h2, h3, ?_⟩
        rintro ⟨z, hz, hf⟩
        rw [List.mem_append] at hz
        rcases hz with hz | hz
        · exact h4 ⟨z, hz, hf⟩
        · rw [List.mem_singleton] at hz
          rw [← hz] at hX
          simp at hX
    | score X =>
      have key : ∃ q, (call (standardAbsoluteDeviationNum (β := β) sqrt sub) s (.score X)).2 =
          { s with subMeter := q } ∧ J ((fitted cs).countP fun x => x.length = 1) q := by
        rcases Nat.eq_zero_or_pos ((fitted cs).countP fun x => x.length = 1) with hz | hpos
        · rw [hz] at h1 h2 ⊢
          have hcount : s.varianceMeter.countMeter = 0 := h2
          have hvar : (varianceMeter (Num K)).get s.varianceMeter =
              .err .zeroDivision s.varianceMeter := by
            change (if s.varianceMeter.countMeter = 0 then _ else _) = _
            rw [if_pos hcount]
          have hr := hJ.raises _ h1
          have hq : J 0 (sub.get s.subMeter).state := by
            rcases hr with h | h
            · rw [h]; exact h1
            · exact h
          refine ⟨(sub.get s.subMeter).state, ?_, hq⟩
          simp only [call, standardAbsoluteDeviationNum]
          cases hg : sub.get s.subMeter with
          | err e q => rfl
          | ok v q =>
            simp only [Res.mapState_ok, Res.bind_ok, hvar, Res.mapState_err, Res.bind_err,
              Res.state_ok]
        · obtain ⟨n, hn⟩ := Nat.exists_eq_succ_of_ne_zero hpos.ne'
          rw [hn] at h1 h2 ⊢
          obtain ⟨v, q, hg, hq⟩ := hJ.get n _ h1
          have hvar : ∃ r, (varianceMeter (Num K)).get s.varianceMeter = .ok r s.varianceMeter := by
            have hne : s.varianceMeter.countMeter ≠ 0 := by rw [h2]; push_cast; omega
            exact ⟨_, if_neg hne⟩
          obtain ⟨r, hvar⟩ := hvar
          refine ⟨q, ?_, hq⟩
          simp only [call, standardAbsoluteDeviationNum, hg, Res.mapState_ok, Res.bind_ok, hvar]
      obtain ⟨q, e, hq⟩ := key
      rw [e]
      unfold SadInv
      rw [fitted_append]
      simp only [fitted, List.append_nil]
      exact ⟨hq, h2, h3, h4⟩
  · refine ⟨hJ.init, rfl, ?_, ?_⟩
    · change (Num.fin (0 : K)) ≠ .negInf
      simp
    · rintro ⟨x, hx, -⟩
      simp [fitted] at hx

theorem sad_deaf [IsStrictOrderedRing K] {σ β : Type*} {sub : Statistic σ (Num K) (Num K)}
    {J : ℕ → σ → Prop} (hJ : SubMeter sub J) (sqrt : K → K) (absolute : Bool)
    (cs : List (Call (List (Num K)) β)) (x : Num K) (hx : [x] ∈ fitted cs)
    (hf : x.isFinite = false) (X : List (Num K)) :
    ((standardAbsoluteDeviationNum (β := β) sqrt sub).scorePartial
      (calls (standardAbsoluteDeviationNum sqrt sub) (SadState.newNum sub absolute) cs).2 X).out =
      .ok (X.map fun _ => .nan) := by
  obtain ⟨h1, h2, h3, h4⟩ := sad_inv (β := β) hJ sqrt absolute cs
  set s := (calls (standardAbsoluteDeviationNum sqrt sub) (SadState.newNum sub absolute) cs).2
  obtain ⟨g1, g2⟩ := h4 ⟨x, hx, hf⟩
  have hpos : 0 < (fitted cs).countP fun x => x.length = 1 :=
    List.countP_pos_iff.2 ⟨[x], hx, by simp⟩
  obtain ⟨n, hn⟩ := Nat.exists_eq_succ_of_ne_zero hpos.ne'
  rw [hn] at h1 h2
  obtain ⟨v, q, hg, -⟩ := hJ.get n _ h1
  have hvar : (varianceMeter (Num K)).get s.varianceMeter = .ok .nan s.varianceMeter := by
    change (if s.varianceMeter.countMeter = 0 then _ else Res.ok _ s.varianceMeter) = _
    rw [if_neg (by rw [h2]; push_cast; omega)]
    congr 1
    exact variance_nan (by rw [h2]; push_cast; omega) g2 g1
  simp only [standardAbsoluteDeviationNum, hg, Res.mapState_ok, Res.bind_ok, hvar]
  have e : ∀ y : Num K, (y - v) / ((Num.nan : Num K).sqrt sqrt + .fin epsilon10) = .nan := by
    intro y
    change (y - v) / (Num.nan : Num K) = .nan
    cases y - v <;> rfl
  simp only [e]
  cases s.absolute
  · simp
  · simp [Num.abs, Function.comp_def]

end Missing

open Missing

/-- **C155, `StandardAbsoluteDeviation`.** After one fitted value that is `nan` or infinite, every
score of every instance is `nan`, for ever, with either subtracted statistic. -/
theorem C155_sad_partial [IsStrictOrderedRing K] {β : Type*} (sqrt : K → K) (absolute : Bool)
    (cs : List (Call (List (Num K)) β)) (x : Num K) (hx : [x] ∈ fitted cs)
    (hf : x.isFinite = false) (X : List (Num K)) :
    ((standardAbsoluteDeviationNum (β := β) sqrt (averageMeter (Num K))).scorePartial
      (calls (standardAbsoluteDeviationNum sqrt (averageMeter (Num K)))
        (SadState.newNum (averageMeter (Num K)) absolute) cs).2 X).out = .ok (X.map fun _ => .nan) ∧
    ((standardAbsoluteDeviationNum (β := β) sqrt (medianMeter (Num K))).scorePartial
      (calls (standardAbsoluteDeviationNum sqrt (medianMeter (Num K)))
        (SadState.newNum (medianMeter (Num K)) absolute) cs).2 X).out = .ok (X.map fun _ => .nan) :=
  ⟨sad_deaf average_sub sqrt absolute cs x hx hf X, sad_deaf median_sub sqrt absolute cs x hx hf X⟩

/-- **C155, refuted.** -/
def C155_sad_statement : Prop := ∀ (sqrt : ℚ → ℚ) (absolute : Bool),
  KeepsAnswering (standardAbsoluteDeviationNum (β := Unit) sqrt (averageMeter (Num ℚ)))
    (SadState.newNum (averageMeter (Num ℚ)) absolute)

theorem C155_sad_refuted : ¬ C155_sad_statement := by
  intro h
  have cs : List (Call (List (Num ℚ)) Unit) := []
  obtain ⟨r, hr, hfin⟩ := h id true [.fit [.fin 1] none, .fit [.nan] none, .fit [.fin 2] none] 1
    ⟨1, by simp [fitted]⟩
  rw [(C155_sad_partial (β := Unit) id true
    [.fit [.fin 1] none, .fit [.nan] none, .fit [.fin 2] none] .nan (by simp [fitted]) rfl
    [.fin 1]).1] at hr
  simp only [List.map_cons, List.map_nil, Except.ok.injEq] at hr
  subst hr
  exact absurd (hfin .nan (by simp)) (by simp [Num.isFinite])

end

/-! ### `RelativeEntropy` -/

/-- The numbers of a list without `nan` and infinities; `none` if there is one. -/
def Spec.finiteOnly {K : Type*} : List (Num K) → Option (List K)
  | [] => some []
  | .fin x :: l => (finiteOnly l).map (x :: ·)
  | _ :: _ => none

/-- The windows of the last `W` values that have been seen when a value arrived. -/
def Spec.windowsSeen {α : Type*} (W : ℕ) (X : List α) : List (List α) :=
  ((List.range (X.length + 1)).filter fun t => W ≤ t).map fun t => lastN W (X.take t)

/-- Those of them that consist of numbers. -/
def Spec.goodWindows {K : Type*} (W : ℕ) (X : List (Num K)) : List (List K) :=
  (windowsSeen W X).filterMap finiteOnly

section
variable {K β : Type*} [Field K] [LinearOrder K] [IsStrictOrderedRing K] [FloorRing K]

namespace Missing

theorem windowsSeen_snoc {α : Type*} (W : ℕ) (X : List α) (x : α) :
    windowsSeen W (X ++ [x]) =
      windowsSeen W X ++ if W ≤ X.length + 1 then [lastN W (X ++ [x])] else [] := by
  unfold windowsSeen
  rw [List.length_append, List.length_singleton, List.range_succ, List.filter_append,
    List.map_append]
  congr 1
  · apply List.map_congr_left
    intro t ht
    have : t ≤ X.length := by
      have := List.mem_range.1 (List.mem_filter.1 ht).1
      omega
    rw [List.take_append_of_le_length this]
  · have hX : (X ++ [x]).take (X.length + 1) = X ++ [x] := List.take_of_length_le (by simp)
    by_cases h : W ≤ X.length + 1
    · simp [h, hX]
    · simp [h]

theorem mapM_quantizeNum (lo step : K) (hs : step ≠ 0) (vs : List (Num K)) :
    match finiteOnly vs with
    | some l => vs.mapM (RelEnt.quantizeNum lo step) = .ok (l.map fun v => ⌈(v - lo) / step⌉)
    | none => ∃ e, vs.mapM (RelEnt.quantizeNum lo step) = .error e := by
  induction vs with
  | nil => rfl
  | cons v vs ih =>
    rw [List.mapM_cons]
    cases v with
    | fin v =>
      cases hf : finiteOnly vs with
      | some l =>
        rw [hf] at ih
        simp only at ih
        simp only [finiteOnly, hf, Option.map_some, ih, RelEnt.quantizeNum, if_neg hs]
        rfl
      | none =>
        rw [hf] at ih
        obtain ⟨e, he⟩ := ih
        simp only [finiteOnly, hf, Option.map_none]
        refine ⟨e, ?_⟩
        simp only [he, RelEnt.quantizeNum, if_neg hs]
        rfl
    | posInf => exact ⟨_, by simp only [RelEnt.quantizeNum, if_neg hs]; rfl⟩
    | negInf => exact ⟨_, by simp only [RelEnt.quantizeNum, if_neg hs]; rfl⟩
    | nan => exact ⟨_, by simp only [RelEnt.quantizeNum, if_neg hs]; rfl⟩

/-- The state after the stream `X`. -/
def RelEntNumInv (isf : ℤ → Num K) (lo hi : K) (n W : ℕ) (X : List (Num K))
    (s : RelEntNumState K) : Prop :=
  s.minVal = lo ∧ s.util = X ∧ s.nBins = n ∧ s.W = W ∧ s.T = isf ((n : ℤ) - 1) ∧
  s.stepSize = (hi - lo) / n ∧
  s.P = (goodWindows W X).head?.toList.map (frequencies lo ((hi - lo) / n) n) ∧
  s.m = s.P.length ∧
  s.pHat = (goodWindows W X).getLast?.map (frequencies lo ((hi - lo) / n) n)

theorem relEntNum_fit (isf : ℤ → Num K) (lo hi : K) (hne : lo ≠ hi) (n W : ℕ) (hn : 1 ≤ n)
    (hW : 1 ≤ W) (X : List (Num K)) (s : RelEntNumState K) (h : RelEntNumInv isf lo hi n W X s)
    (x : Num K) :
    RelEntNumInv isf lo hi n W (X ++ [x]) (RelEnt.fitPartialNum s x).state ∧
    ((∃ e, (RelEnt.fitPartialNum s x).out = .error e) ↔
      W ≤ X.length + 1 ∧ finiteOnly (lastN W (X ++ [x])) = none) := by
  obtain ⟨h1, h2, h3, h4, h5, h6, h7, h8, h9⟩ := h
  have hstep : (hi - lo) / (n : K) ≠ 0 := by
    have : (n : K) ≠ 0 := by positivity
    exact div_ne_zero (sub_ne_zero.2 hne.symm) this
  have hlen : (X ++ [x]).length = X.length + 1 := by simp
  have hdrop : (X ++ [x]).drop (X.length + 1 - W) = lastN W (X ++ [x]) := by rw [lastN, hlen]
  unfold RelEnt.fitPartialNum
  simp only [h1, h2, h3, h4, h6, hlen, if_neg (show ¬ W = 0 by omega), hdrop]
  by_cases hc : W ≤ X.length + 1
  · rw [if_pos hc]
    have hq := mapM_quantizeNum lo ((hi - lo) / n) hstep (lastN W (X ++ [x]))
    cases hf : finiteOnly (lastN W (X ++ [x])) with
    | none =>
      rw [hf] at hq
      obtain ⟨e, he⟩ := hq
      rw [he]
      have hg : goodWindows W (X ++ [x]) = goodWindows W X := by
        unfold goodWindows
        rw [windowsSeen_snoc, if_pos hc, List.filterMap_append]
        simp [hf]
      refine ⟨⟨rfl, rfl, rfl, rfl, h5, rfl, ?_, h8, ?_⟩, ⟨fun _ => ⟨hc, rfl⟩, fun _ => ⟨e, rfl⟩⟩⟩
      · rw [hg]; exact h7
      · rw [hg]; exact h9
    | some l =>
      rw [hf] at hq
      simp only at hq
      rw [hq]
      simp only [histogram_eq]
      have hg : goodWindows W (X ++ [x]) = goodWindows W X ++ [l] := by
        unfold goodWindows
        rw [windowsSeen_snoc, if_pos hc, List.filterMap_append]
        simp [hf]
      by_cases hm : s.m = 0
      · have hP : s.P = [] := List.eq_nil_of_length_eq_zero (h8 ▸ hm)
        have hempty : goodWindows W X = [] := by
          rw [hP] at h7
          cases hgw : goodWindows W X with
          | nil => rfl
          | cons a b => rw [hgw] at h7; simp at h7
        rw [if_pos hm]
        refine ⟨⟨rfl, rfl, rfl, rfl, h5, rfl, ?_, ?_, ?_⟩, by simp⟩
        · rw [hg, hempty]; simp [hP]
        · simp [hP]
        · rw [hg]; simp
      · rw [if_neg hm]
        have hne' : ∃ a b, goodWindows W X = a :: b := by
          cases hgw : goodWindows W X with
          | nil => rw [hgw] at h7; rw [h7] at h8; simp at h8; exact absurd h8 hm
          | cons a b => exact ⟨a, b, rfl⟩
        obtain ⟨a, b, hab⟩ := hne'
        refine ⟨⟨rfl, rfl, rfl, rfl, h5, rfl, ?_, h8, ?_⟩, by simp⟩
        · rw [hg, hab]; rw [hab] at h7; simpa using h7
        · rw [hg]; simp
  · rw [if_neg hc]
    have hg : goodWindows W (X ++ [x]) = goodWindows W X := by
      unfold goodWindows
      rw [windowsSeen_snoc, if_neg hc, List.append_nil]
    refine ⟨⟨rfl, rfl, rfl, rfl, h5, rfl, ?_, h8, ?_⟩, by simp [hc]⟩
    · rw [hg]; exact h7
    · rw [hg]; exact h9

variable (entropy : List (Num K) → List (Num K) → Num K)

theorem relEntNum_inv (isf : ℤ → Num K) (lo hi : K) (hne : lo ≠ hi) (n W : ℕ) (hn : 1 ≤ n)
    (hW : 1 ≤ W) (s0 : RelEntNumState K) (h0 : RelEnt.newNum isf lo hi n W = .ok s0)
    (cs : List (Call (Num K) β)) :
    RelEntNumInv isf lo hi n W (fitted cs) (calls (RelEnt.detectorNum entropy) s0 cs).2 := by
  refine calls_inv (d := RelEnt.detectorNum (β := β) entropy)
    (P := fun cs (s : RelEntNumState K) => RelEntNumInv isf lo hi n W (fitted cs) s) ?_ _ ?_ cs
  · intro cs s c h
    rw [fitted_append]
    cases c with
    | fit x y =>
      have := (relEntNum_fit isf lo hi hne n W hn hW _ s h x).1
      rw [show fitted [Call.fit x y] = [x] from rfl]
      simp only [call, RelEnt.detectorNum]
      cases hx : RelEnt.fitPartialNum s x <;> simpa [hx] using this
    | score x =>
      have hst : (RelEnt.scorePartialNum entropy s).state = s := by
        unfold RelEnt.scorePartialNum
        split
        · split
          · rfl
          · cases Except.map Prod.fst _ <;> rfl
        · rfl
      have : (call (RelEnt.detectorNum (β := β) entropy) s (.score x)).2 = s := by
        simp only [call, RelEnt.detectorNum]
        cases hx : RelEnt.scorePartialNum entropy s <;> simpa [hx] using hst
      rw [this]
      simpa [fitted] using h
  · unfold RelEnt.newNum at h0
    rw [if_neg (by omega)] at h0
    simp only [Except.ok.injEq] at h0
    subst h0
    have : goodWindows W ([] : List (Num K)) = [] := by
      unfold goodWindows windowsSeen
      simp [show ¬ W = 0 by omega]
    simp only [fitted]
    refine ⟨rfl, rfl, rfl, rfl, rfl, rfl, ?_, rfl, ?_⟩ <;> rw [this] <;> rfl

end Missing

open Missing

variable (entropy : List (Num K) → List (Num K) → Num K)

/-- **C155, `RelativeEntropy`.** `fit_partial` raises exactly while the last `W` values contain one
that is `nan` or infinite. -/
theorem C155_relent_raises_partial (isf : ℤ → Num K) (lo hi : K) (hne : lo ≠ hi) (n W : ℕ)
    (hn : 1 ≤ n) (hW : 1 ≤ W) (s0 : RelEntNumState K) (h0 : RelEnt.newNum isf lo hi n W = .ok s0)
    (cs : List (Call (Num K) β)) (x : Num K) (y : Option β) :
    (∃ e, ((RelEnt.detectorNum (β := β) entropy).fitPartial
      (calls (RelEnt.detectorNum entropy) s0 cs).2 x y).out = .error e) ↔
    W ≤ (fitted cs ++ [x]).length ∧ ∃ v ∈ lastN W (fitted cs ++ [x]), v.isFinite = false := by
  have h := (relEntNum_fit isf lo hi hne n W hn hW _ _
    (relEntNum_inv (β := β) entropy isf lo hi hne n W hn hW s0 h0 cs) x).2
  have hnone : ∀ l : List (Num K), finiteOnly l = none ↔ ∃ v ∈ l, v.isFinite = false := by
    intro l
    induction l with
    | nil => simp [finiteOnly]
    | cons v l ih => cases v <;> simp [finiteOnly, Num.isFinite, ih]
  rw [← hnone, List.length_append, List.length_singleton]
  exact h

/-- **C155, `RelativeEntropy`.** The score is a number: 0 until there was a window of `W` numbers,
and from then on it compares the last such window with the first one. -/
theorem C155_relent_score_partial (isf : ℤ → Num K) (lo hi : K) (hne : lo ≠ hi) (n W : ℕ)
    (hn : 1 ≤ n) (hW : 1 ≤ W) (s0 : RelEntNumState K) (h0 : RelEnt.newNum isf lo hi n W = .ok s0)
    (cs : List (Call (Num K) β)) (x : Num K) :
    let s := (calls (RelEnt.detectorNum entropy) s0 cs).2
    let freq := frequencies lo ((hi - lo) / n) n
    (RelEnt.detectorNum (β := β) entropy).scorePartial s x =
      .ok (match (goodWindows W (fitted cs)).getLast?, (goodWindows W (fitted cs)).head? with
        | some current, some first =>
          let statistic := scaled (2 * (W : K)) (entropy (freq current) (freq first))
          if Below statistic (isf ((n : ℤ) - 1)) ∧ Below statistic .posInf then 0 else -1
        | _, _ => 0) s := by
  intro s freq
  obtain ⟨h1, h2, h3, h4, h5, h6, h7, h8, h9⟩ :=
    relEntNum_inv (β := β) entropy isf lo hi hne n W hn hW s0 h0 cs
  have hs : s = (calls (RelEnt.detectorNum entropy) s0 cs).2 := rfl
  rw [← hs] at h1 h2 h3 h4 h5 h6 h7 h8 h9
  have hlen : goodWindows W (fitted cs) ≠ [] → W ≤ (fitted cs).length := by
    intro hg
    by_contra hlt
    apply hg
    unfold goodWindows windowsSeen
    rw [List.filter_eq_nil_iff.2]
    · rfl
    · intro t ht
      have := List.mem_range.1 ht
      simp only [decide_eq_true_eq]
      omega
  show RelEnt.scorePartialNum entropy s = _
  unfold RelEnt.scorePartialNum
  rw [h4, h2]
  cases hg : goodWindows W (fitted cs) with
  | nil =>
    rw [hg] at h7
    rw [h7] at h8
    rw [if_neg (by rw [h8]; simp)]
    rfl
  | cons a b =>
    have hW' := hlen (by rw [hg]; simp)
    rw [hg] at h7 h9
    obtain ⟨cur, hcur⟩ : ∃ cur, (a :: b).getLast? = some cur := ⟨_, List.getLast?_eq_some_getLast (by simp)⟩
    have hP : s.P = [freq a] := by simpa using h7
    have hm : s.m = 1 := by rw [h8, hP]; rfl
    rw [if_pos ⟨hW', by omega⟩, h9, hcur]
    simp only [Option.map_some, List.head?_cons]
    simp only [hm, List.range_succ, List.range_zero, List.nil_append,
      List.foldlM_cons, List.foldlM_nil, RelEnt.agreeStepNum, hP, h4, h5]
    have hsc := Num.smul_eq_scaled (two_mul_pos (K := K) hW) (entropy (freq cur) (freq a))
    generalize hstat : scaled (2 * (W : K)) (entropy (freq cur) (freq a)) = statistic at hsc
    show Res.ofExcept (Except.map Prod.fst (Except.bind
      (if ((Num.smul (2 * (W : K)) (entropy (freq cur) (freq a))).lt (isf ((n : ℤ) - 1)) &&
        (Num.smul (2 * (W : K)) (entropy (freq cur) (freq a))).lt .posInf) = true
        then Except.ok (((0 : ℕ) : ℤ), Num.smul (2 * (W : K)) (entropy (freq cur) (freq a)))
        else Except.ok (-1, Num.posInf)) fun a => Except.ok a)) s = _
    rw [hsc]
    have hiff : (statistic.lt (isf ((n : ℤ) - 1)) && statistic.lt .posInf) = true ↔
        Below statistic (isf ((n : ℤ) - 1)) ∧ Below statistic .posInf := by
      rw [Bool.and_eq_true, Num.lt_iff_below, Num.lt_iff_below]
    by_cases hl : Below statistic (isf ((n : ℤ) - 1)) ∧ Below statistic .posInf
    · rw [if_pos (hiff.2 hl), if_pos hl]; rfl
    · rw [if_neg (mt hiff.1 hl), if_neg hl]; rfl

end

/-- A case with a missing value: fits raise while it is among the last two values. -/
example : ∃ s0, RelEnt.newNum (fun _ => .fin 9) 0 (4 : ℚ) 2 2 = .ok s0 ∧
    (calls (RelEnt.detectorNum (β := Unit) fun _ _ => .fin 1) s0
      [.fit (.fin 1) none, .fit .nan none, .fit (.fin 3) none, .score (.fin 1), .fit (.fin 1) none,
       .score (.fin 1)]).1 =
      [.done, .raised .valueError, .raised .valueError, .value 0, .done, .value 0] ∧
    goodWindows 2 [.fin 1, .nan, .fin 3, .fin (1 : ℚ)] = [[3, 1]] :=
  ⟨_, rfl, by decide +kernel, by decide +kernel⟩

end Pysad
