import Verif.Model.KitNetLengths
import Verif.Props.KitNet
import Verif.Props.WrongLength
import Verif.Props.Units

/-! Properties C178 and C91 for `KitNet` and `Inqmad`: instances of any length. -/

namespace Pysad
open Spec

/-- The call is about an instance with `n` features. -/
def Spec.Call.HasLength {K β : Type*} (n : ℕ) : Call (List K) β → Prop
  | .fit x _ => x.length = n
  | .score x => x.length = n

namespace KitNetLengths

section
variable {K : Type*} [Field K] [LinearOrder K] {n : ℕ}

omit [Field K] [LinearOrder K] in
private theorem mapM_some {α : Type*} (f : α → Option K) (g : α → K) (l : List α)
    (h : ∀ a ∈ l, f a = some (g a)) : l.mapM f = some (l.map g) := by
  induction l with
  | nil => rfl
  | cons a l ih =>
    rw [List.mapM_cons, h a List.mem_cons_self, ih fun b hb => h b (List.mem_cons_of_mem _ hb)]
    rfl

omit [Field K] [LinearOrder K] in
private theorem mapM_none {α : Type*} (f : α → Option K) (l : List α) {a : α} (ha : a ∈ l)
    (h : f a = none) : l.mapM f = none := by
  induction l with
  | nil => cases ha
  | cons b l ih =>
    rw [List.mapM_cons]
    rcases List.mem_cons.1 ha with rfl | ha
    · rw [h]; rfl
    · rw [ih ha]
      cases f b <;> rfl

omit [LinearOrder K] in
private theorem partAny_eq (x : List K) (hx : n ≤ x.length) (idx : List (Fin n)) :
    KitNET.partAny x idx = some (idx.map (CorClust.vec n x)) := by
  refine mapM_some _ _ _ fun i _ => ?_
  have hi : i.val < x.length := lt_of_lt_of_le i.isLt hx
  simp only [CorClust.vec, List.getElem?_eq_getElem hi, List.getD_eq_getElem?_getD,
    Option.getD_some]

private theorem trainLayerAny_eq (env : KnEnv K) (x : List K) (hx : n ≤ x.length)
    (as : List (DaState K)) (v : List (List (Fin n))) :
    KitNET.trainLayerAny env x as v =
      (.ok (KitNET.trainLayer env (CorClust.vec n x) as v).1,
        (KitNET.trainLayer env (CorClust.vec n x) as v).2) := by
  induction as generalizing v with
  | nil => cases v <;> rfl
  | cons a as ih =>
    cases v with
    | nil => rfl
    | cons idx v =>
      simp only [KitNET.trainLayerAny, partAny_eq x hx, ih v]
      rfl

omit [LinearOrder K] in
private theorem executeLayerAny_eq (env : KnEnv K) (x : List K) (hx : n ≤ x.length)
    (as : List (DaState K)) (v : List (List (Fin n))) :
    KitNET.executeLayerAny env x as v =
      .ok (KitNET.executeLayer env (CorClust.vec n x) as v) := by
  induction as generalizing v with
  | nil => cases v <;> rfl
  | cons a as ih =>
    cases v with
    | nil => rfl
    | cons idx v =>
      simp only [KitNET.executeLayerAny, partAny_eq x hx, ih v]
      rfl

omit [LinearOrder K] in
private theorem executeAny_eq (env : KnEnv K) (s : KnState K n) (x : List K) (hx : n ≤ x.length) :
    KitNET.executeAny env s x = KitNET.execute env s (CorClust.vec n x) := by
  unfold KitNET.executeAny KitNET.execute
  cases s.v with
  | none => rfl
  | some v =>
    simp only [executeLayerAny_eq env x hx]
    cases s.output <;> rfl

private theorem trainLayersAny_eq (env : KnEnv K) (s : KnState K n) (x : List K)
    (hx : n ≤ x.length) :
    KitNET.trainLayersAny env s x = KitNET.trainLayers env s (CorClust.vec n x) := by
  unfold KitNET.trainLayersAny KitNET.trainLayers
  simp only [trainLayerAny_eq env x hx]
  cases s.output <;> rfl

private theorem processAny_eq [FloorRing K] (env : KnEnv K) (s : KnState K n) (x : List K)
    (hx : x.length = n) :
    KitNET.processAny env s x = KitNET.process env s (CorClust.vec n x) := by
  unfold KitNET.processAny KitNET.process KitNET.trainAny KitNET.train
  rw [executeAny_eq env s x hx.ge, trainLayersAny_eq env s x hx.ge]
  have : KitNET.trainMapAny env s x = KitNET.trainMap env s (CorClust.vec n x) := by
    unfold KitNET.trainMapAny KitNET.trainMap CorClust.updateAny
    rw [if_pos hx]
    rfl
  rw [this]

/-- In the period in which the autoencoders are trained, or later, additional features are
ignored. -/
private theorem processAny_long [FloorRing K] (env : KnEnv K) (s : KnState K n) (x : List K)
    (hx : n ≤ x.length) (hv : s.v ≠ none) :
    KitNET.processAny env s x = KitNET.process env s (CorClust.vec n x) := by
  unfold KitNET.processAny KitNET.process KitNET.trainAny KitNET.train
  have hc : ¬ (s.nTrained ≤ s.fmGrace ∧ s.v = none) := fun h => hv h.2
  rw [executeAny_eq env s x hx, trainLayersAny_eq env s x hx]
  simp only [if_neg hc]

omit [Field K] [LinearOrder K] in
/-- Some part of a partition needs a feature that a short instance lacks. -/
private theorem short_part (x : List K) (hx : x.length < n) {v : List (List (Fin n))}
    (hv : IsPartition v) : ∃ p ∈ v, KitNET.partAny x p = none := by
  have : (⟨x.length, hx⟩ : Fin n) ∈ v.flatten := hv.1.mem_iff.2 (List.mem_finRange _)
  obtain ⟨p, hp, hi⟩ := List.mem_flatten.1 this
  exact ⟨p, hp, mapM_none _ p hi (List.getElem?_eq_none le_rfl)⟩

private theorem trainLayerAny_short (env : KnEnv K) (x : List K) (as : List (DaState K))
    (v : List (List (Fin n))) (hlen : as.length = v.length)
    (h : ∃ p ∈ v, KitNET.partAny x p = none) :
    (KitNET.trainLayerAny env x as v).1 = .error .indexError := by
  induction as generalizing v with
  | nil =>
    obtain ⟨p, hp, -⟩ := h
    cases v with
    | nil => cases hp
    | cons q v => simp at hlen
  | cons a as ih =>
    cases v with
    | nil => simp at hlen
    | cons q v =>
      simp only [KitNET.trainLayerAny]
      cases hq : KitNET.partAny x q with
      | none => rfl
      | some xi =>
        obtain ⟨p, hp, hn⟩ := h
        rcases List.mem_cons.1 hp with rfl | hp
        · rw [hq] at hn; cases hn
        · simp only
          rw [ih v (by simpa using hlen) ⟨p, hp, hn⟩]
          rfl

omit [LinearOrder K] in
private theorem executeLayerAny_short (env : KnEnv K) (x : List K) (as : List (DaState K))
    (v : List (List (Fin n))) (hlen : as.length = v.length)
    (h : ∃ p ∈ v, KitNET.partAny x p = none) :
    KitNET.executeLayerAny env x as v = .error .indexError := by
  induction as generalizing v with
  | nil =>
    obtain ⟨p, hp, -⟩ := h
    cases v with
    | nil => cases hp
    | cons q v => simp at hlen
  | cons a as ih =>
    cases v with
    | nil => simp at hlen
    | cons q v =>
      simp only [KitNET.executeLayerAny]
      cases hq : KitNET.partAny x q with
      | none => rfl
      | some xi =>
        obtain ⟨p, hp, hn⟩ := h
        rcases List.mem_cons.1 hp with rfl | hp
        · rw [hq] at hn; cases hn
        · simp only
          rw [ih v (by simpa using hlen) ⟨p, hp, hn⟩]
          rfl

/-- The state of the detector of any length that corresponds to one for `n` features. -/
def lift (s : KitNetState K n) : KitNetAny K :=
  ⟨s.maxSizeAe, s.graceFeatureMapping, s.graceAnomalyDetector, s.learningRate, s.hiddenRatio,
    s.model.map fun m => ⟨n, m⟩⟩

private theorem lift_call [FloorRing K] {β : Type*} (env : KnEnv K) (s : KitNetState K n)
    (c : Call (List K) β) (hc : c.HasLength n) :
    call (KitNetAny.detector env) (lift s) c =
      ((call (KitNet.detector env) s (c.on (CorClust.vec n))).1,
        lift (call (KitNet.detector env) s (c.on (CorClust.vec n))).2) := by
  obtain ⟨a, b, c1, d, e, m⟩ := s
  cases c with
  | fit x y =>
    have hx : x.length = n := hc
    subst hx
    cases m with
    | none =>
      simp only [call, KitNetAny.detector, KitNetAny.fitPartial, KitNetAny.init, lift, Call.on,
        KitNet.detector, KitNet.fitPartial, KitNet.init, Option.map_none, Option.getD_none]
      rw [processAny_eq env _ x rfl]
      cases KitNET.process env _ (CorClust.vec x.length x) <;> rfl
    | some m =>
      simp only [call, KitNetAny.detector, KitNetAny.fitPartial, KitNetAny.init, lift, Call.on,
        KitNet.detector, KitNet.fitPartial, KitNet.init, Option.map_some, Option.getD_some]
      rw [processAny_eq env _ x rfl]
      cases KitNET.process env _ (CorClust.vec x.length x) <;> rfl
  | score x =>
    have hx : x.length = n := hc
    subst hx
    cases m with
    | none => rfl
    | some m =>
      simp only [call, KitNetAny.detector, KitNetAny.scorePartial, lift, Call.on, KitNet.detector,
        KitNet.scorePartial, Option.map_some]
      by_cases hv : m.v = none
      · simp only [hv, if_true, Option.map_some]
      · simp only [hv, if_false]
        rw [executeAny_eq env _ x le_rfl]
        cases KitNET.execute env m (CorClust.vec x.length x) <;> rfl

private theorem fitAny_eq [FloorRing K] {β : Type*} (env : KnEnv K) (s : KitNetAny K)
    (m : KnState K n) (hm : s.model = some ⟨n, m⟩) (x : List K) (y : Option β) :
    call (KitNetAny.detector env) s (.fit x y) = match KitNET.processAny env m x with
      | .ok _ m' => (.done, { s with model := some ⟨n, m'⟩ })
      | .err e m' => (.raised e, { s with model := some ⟨n, m'⟩ }) := by
  obtain ⟨a, b, c, d, e, mo⟩ := s
  simp only at hm
  subst hm
  simp only [call, KitNetAny.detector, KitNetAny.fitPartial, KitNetAny.init, Option.getD_some]
  cases KitNET.processAny env m x <;> rfl

end
end KitNetLengths

section
variable {K : Type*} [Field K] [LinearOrder K] [FloorRing K] {β : Type*} {n : ℕ}

open KitNetLengths

/-- As long as all instances have `n` features the two models of KitNet agree. -/
theorem kitnetAny_calls (env : KnEnv K) (s : KitNetState K n) (cs : List (Call (List K) β))
    (hcs : ∀ c ∈ cs, c.HasLength n) :
    calls (KitNetAny.detector env) (lift s) cs =
      ((calls (KitNet.detector env) s (cs.map (Call.on (CorClust.vec n)))).1,
        lift (calls (KitNet.detector env) s (cs.map (Call.on (CorClust.vec n)))).2) := by
  induction cs generalizing s with
  | nil => rfl
  | cons c cs ih =>
    simp only [calls, List.map_cons]
    rw [lift_call env s c (hcs c List.mem_cons_self)]
    simp only
    rw [ih _ fun c hc => hcs c (List.mem_cons_of_mem _ hc)]

variable [IsStrictOrderedRing K]

/-- **C178**, KitNet, as far as it holds, after instances of `n` features only. While the feature
map is learned: `fit_partial` raises for a wrong length, except that a vector with one entry is
taken for the vector with `n` such entries; `score_partial` answers 0 to everything. Afterwards:
instances that are too short are rejected by both, with an `IndexError`; instances that are too long
are taken for their first `n` features by both. -/
theorem C178_kitnet_partial {env : KnEnv K} (law : LinkageLaws env) (hn : 2 ≤ n) (maxSize : ℤ)
    (fmo : Option ℕ) (ad : ℕ) (lr hr : K) (hhr : 0 ≤ hr) (cs : List (Call (List K) β))
    (hne : fitted cs ≠ []) (hcs : ∀ c ∈ cs, c.HasLength n) (x : List K) (y : Option β)
    (hx : x.length ≠ n) :
    let s := (calls (KitNetAny.detector (β := β) env) (KitNetAny.new maxSize fmo ad lr hr) cs).2
    let fit := fun x => call (KitNetAny.detector env) s (.fit x y)
    let score := fun x => call (KitNetAny.detector (β := β) env) s (.score x)
    ((fitted cs).length ≤ fmo.getD ad →
      (x.length ≠ 1 → (fit x).1 = .raised .valueError) ∧
      (∀ a, x = [a] → fit x = fit (List.replicate n a)) ∧
      (score x).1 = .value (.fin 0)) ∧
    (fmo.getD ad < (fitted cs).length →
      (x.length < n → (fit x).1 = .raised .indexError ∧ (score x).1 = .raised .indexError) ∧
      (n < x.length → fit x = fit (x.take n) ∧ score x = score (x.take n))) := by
  intro s fit score
  have hs : s = lift (calls (KitNet.detector env) (KitNet.new n maxSize fmo ad lr hr)
      (cs.map (Call.on (CorClust.vec n)))).2 := by
    have := kitnetAny_calls (β := β) env (KitNet.new n maxSize fmo ad lr hr) cs hcs
    exact congrArg Prod.snd this
  obtain ⟨-, h2, h3, h4, h5, h6, h7, hinv⟩ := kitnet_calls (β := β) law hn maxSize fmo ad lr hr hhr
    (cs.map (Call.on (CorClust.vec n)))
  rw [fitted_on] at h2 hinv
  obtain ⟨m, hm⟩ := h2 (by simpa using hne)
  simp only [KitNet.init, hm, Option.getD_some] at hinv
  have hsm : s.model = some ⟨n, m⟩ := by rw [hs]; simp only [lift, hm, Option.map_some]
  have hmem : ((fitted cs).map (CorClust.vec n)).length = (fitted cs).length := List.length_map _
  have fit_eq : ∀ x : List K, fit x = match KitNET.processAny env m x with
      | .ok _ m' => (.done, { s with model := some ⟨n, m'⟩ })
      | .err e m' => (.raised e, { s with model := some ⟨n, m'⟩ }) := by
    exact fun x => fitAny_eq env s m hsm x y
  constructor
  · intro hle
    obtain ⟨hv, -, -⟩ := hinv.early (by rw [hmem]; exact hle)
    have hnt : m.nTrained ≤ m.fmGrace := by
      rw [hinv.nTrained_eq, hinv.fmGrace_eq, hmem]; omega
    have hproc : ∀ x, KitNET.processAny env m x = (KitNET.trainMapAny env m x).bind
        fun _ s => .ok () { s with nTrained := s.nTrained + 1 } := by
      intro x
      unfold KitNET.processAny KitNET.trainAny
      rw [if_neg (by omega), if_pos ⟨hnt, hv⟩]
    refine ⟨fun h1 => ?_, fun a ha => ?_, ?_⟩
    · rw [fit_eq, hproc]
      have : m.fm.updateAny x = .err .valueError { m.fm with N := m.fm.N + 1 } := by
        unfold CorClust.updateAny
        rw [if_neg hx]
        match x, h1 with
        | [], _ => rfl
        | [a], h1 => exact absurd rfl h1
        | a :: b :: l, _ => rfl
      unfold KitNET.trainMapAny
      rw [this]
      rfl
    · subst ha
      rw [fit_eq, fit_eq, hproc, hproc]
      have : m.fm.updateAny [a] = m.fm.updateAny (List.replicate n a) := by
        unfold CorClust.updateAny
        rw [if_neg hx, if_pos (List.length_replicate ..)]
        simp only
        congr 2
        funext i
        simp [CorClust.vec]
      unfold KitNET.trainMapAny
      rw [this]
    · simp only [score, call, KitNetAny.detector, KitNetAny.scorePartial, hsm, hv, if_true]
  · intro hlt
    obtain ⟨v, -, hv, hp, -, hens, hout⟩ := hinv.late (by rw [hmem]; exact hlt)
    have hv' : m.v ≠ none := by rw [hv]; simp
    have hlen : m.ensemble.length = v.length := by rw [hens, List.length_map]
    have score_eq : ∀ x : List K, score x = match KitNET.executeAny env m x with
        | .ok r m' => (.value r, { s with model := some ⟨n, m'⟩ })
        | .err e m' => (.raised e, { s with model := some ⟨n, m'⟩ }) := by
      intro x
      simp only [score, call, KitNetAny.detector, KitNetAny.scorePartial, hsm, hv', if_false]
      cases KitNET.executeAny env m x <;> rfl
    constructor
    · intro hlt'
      have hshort := short_part x hlt' hp
      have hex : KitNET.executeAny env m x
          = .err .indexError { m with nExecuted := m.nExecuted + 1 } := by
        simp only [KitNET.executeAny, hv, executeLayerAny_short env x _ v hlen hshort]
      constructor
      · rw [fit_eq]
        unfold KitNET.processAny
        by_cases hg : m.nTrained > m.fmGrace + m.adGrace
        · rw [if_pos hg, hex]; rfl
        · rw [if_neg hg]
          unfold KitNET.trainAny
          rw [if_neg (fun h => hv' h.2)]
          have ht := trainLayerAny_short env x m.ensemble v hlen hshort
          simp only [KitNET.trainLayersAny, hv, Option.getD_some, ht]
          rfl
      · rw [score_eq, hex]
    · intro hlt'
      have htl : (x.take n).length = n := by rw [List.length_take]; omega
      have hvec : CorClust.vec n (x.take n) = CorClust.vec n x := by
        funext i
        simp [CorClust.vec, List.getElem?_take_of_lt i.isLt]
      constructor
      · rw [fit_eq, fit_eq, processAny_long env m x hlt'.le hv',
          processAny_long env m _ htl.ge hv', hvec]
      · rw [score_eq, score_eq, executeAny_eq env m x hlt'.le, executeAny_eq env m _ htl.ge, hvec]

omit [LinearOrder K] [FloorRing K] [IsStrictOrderedRing K] in
/-- **C178**, Inqmad: instances of another length than the constructor was given are rejected, at
any time. -/
theorem C178_inqmad {k : ℕ} (env : InqEnv K n k) (b : ℕ) :
    RejectsOtherLengths (InqmadAny.detector (β := β) env) (Inqmad.new b) n := by
  intro cs _ _ x y hx
  generalize (calls (InqmadAny.detector (β := β) env) (Inqmad.new b) cs).2 = s
  constructor
  · simp only [call, InqmadAny.detector, InqmadAny.fitPartial, if_neg hx]
    split_ifs
    · exact ⟨_, rfl⟩
    · exact ⟨_, rfl⟩
  · simp only [call, InqmadAny.detector, InqmadAny.scorePartial, if_neg hx]
    cases Inqmad.trace s with
    | error e => exact ⟨_, rfl⟩
    | ok rho => exact ⟨_, rfl⟩

omit [LinearOrder K] [FloorRing K] [IsStrictOrderedRing K] in
/-- **C91**, Inqmad, with instances of any length. -/
theorem C91_inqmad_lengths {k : ℕ} (env : InqEnv K n k) (b : ℕ) :
    RejectionsUnnoticed (InqmadAny.detector (β := β) env) (Inqmad.new b) :=
  rejectionsUnnoticed (fun s c h => by
    cases c with
    | fit x y =>
      simp only [call, InqmadAny.detector, InqmadAny.fitPartial, Inqmad.fitPartial] at h ⊢
      by_cases hb : s.batchSize = 0
      · simp [hb]
      · by_cases hx : x.length = n
        · simp [hb, hx, Answer.isRaised] at h
        · simp [hb, hx]
    | score x =>
      simp only [call, InqmadAny.detector, InqmadAny.scorePartial, Inqmad.scorePartial] at h ⊢
      by_cases hx : x.length = n
      · simp only [if_pos hx] at h ⊢
        cases ht : s.traced with
        | some rho => simp only
        | none =>
          rw [ht] at h
          cases hr : Inqmad.trace s with
          | error e => simp only
          | ok rho => simp [hr, Answer.isRaised] at h
      · simp only [if_neg hx]
        cases Inqmad.trace s <;> rfl) _

end

/-- **C178 is false** of KitNet: a longer instance is scored. -/
theorem C178_kitnet_refuted :
    ¬ RejectsOtherLengths (KitNetAny.detector (β := Unit) kitnetExampleEnv)
      (KitNetAny.new 1 (some 0) 2 1 (3 / 4)) 2 := by
  intro h
  obtain ⟨-, e, he⟩ := h [.fit [0, 0] none, .fit [1, 1] none] (by simp [fitted]) (by simp [fitted])
    [2, 2, 2] none (by simp)
  have : (call (KitNetAny.detector (β := Unit) kitnetExampleEnv)
      (calls (KitNetAny.detector (β := Unit) kitnetExampleEnv)
        (KitNetAny.new 1 (some 0) 2 1 (3 / 4)) [.fit [0, 0] none, .fit [1, 1] none]).2
      (.score [2, 2, 2])).1.isRaised = false := by decide +kernel
  rw [he] at this
  simp [Answer.isRaised] at this

private def number : Answer (Num ℚ) → Option ℚ
  | .value (.fin r) => some r
  | _ => none

/-- **C91 is false** of KitNet with instances of any length: an instance that lacks a feature is
rejected with an `IndexError`, but the autoencoders before the one that needs the feature have been
trained with it, and later scores differ. -/
theorem C91_kitnet_lengths_refuted :
    ¬ RejectionsUnnoticed (KitNetAny.detector (β := Unit) kitnetExampleEnv)
      (KitNetAny.new 1 (some 0) 2 1 (3 / 4)) := by
  intro h
  have := congrArg (fun l => l.map number)
    (h [.fit [0, 0] none, .fit [1, 1] none, .fit [5] none, .score [2, 2]])
  exact absurd this (by decide +kernel)

/-! Concrete runs: the hypotheses of `C178_kitnet_partial` are met, in both periods. -/

example : LinkageLaws kitnetExampleEnv ∧
    (∀ c ∈ ([.fit [0, 0] none, .fit [1, 1] none] : List (Call (List ℚ) Unit)), c.HasLength 2) := by
  refine ⟨chainLinkage_laws _ rfl, ?_⟩
  intro c hc
  simp only [List.mem_cons, List.not_mem_nil, or_false] at hc
  rcases hc with rfl | rfl <;> rfl

example : (calls (KitNetAny.detector (β := Unit) kitnetExampleEnv)
    (KitNetAny.new 1 (some 1) 2 1 (3 / 4))
    [.fit [0, 0] none, .fit [1, 2, 3] none, .score [1, 2, 3], .fit [1] none, .fit [1, 2, 3] none,
      .fit [1] none, .score [1]]).1.map Answer.isRaised
    = [false, true, false, false, false, true, true] := by
  decide +kernel

example (env : InqEnv ℚ 2 1) : ((calls (InqmadAny.detector (β := Unit) env) (Inqmad.new 1)
    [.fit [0, 0] none, .fit [1, 2, 3] none, .score [1, 2], .score [1]]).1.map Answer.isRaised)
    = [false, true, false, true] := by
  simp [calls, call, InqmadAny.detector, InqmadAny.fitPartial, InqmadAny.scorePartial,
    Inqmad.fitPartial, Inqmad.scorePartial, Inqmad.new, Inqmad.trace, Answer.isRaised]

end Pysad
