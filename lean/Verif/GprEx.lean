import Verif.GprProps2
import Mathlib.Algebra.Order.Ring.Rat

/-!
# Examples and counterexamples for the regressor model (C09-C13, C19, C63, C66, C70)

Concrete instances over `ℚ`; `decide +kernel` evaluates the model in the kernel.
-/

set_option linter.all false

namespace GPry.Gpr

/-- A regressor with points in `ℕ`, identity preprocessors, threshold 20, `keep_min_finite = 2`; the
"optimal" hyperparameter is the number of training points. -/
def exCfg (svm : Bool) : Cfg ℕ Unit ℕ ℚ where
  useSvm := svm
  keepMin := 2
  thr := .fin 20
  eps := 1 / 1000000
  fitX := fun _ _ _ => ()
  trX := fun _ x => x
  fitY := fun _ _ _ => .ok (.aff 0 1)
  nRestarts := 1
  canOptimise := true
  optimise := fun xs _ _ _ _ => xs.length
  cholOk := fun _ _ _ => true

/-- The same, with a target preprocessor that subtracts the last target. -/
def exCfgY : Cfg ℕ Unit ℕ ℚ :=
  { exCfg true with fitY := fun _ _ ys => match ys.getLast? with
      | some (.fin v) => .ok (.aff v 1)
      | _ => .ok .nanAff }

/-- Fresh regressor with noise level 1. -/
def ex0 : State ℕ Unit ℕ ℚ := State.init () (.aff 0 1) (.scalar 1)

/-- Three points, one of them `-inf`. -/
def callA : Call ℕ ℚ := { batch := some ([1, 2, 3], [.fin 1, .negInf, .fin 2]) }
/-- A point far below the threshold. -/
def callLow : Call ℕ ℚ := { batch := some ([4], [.fin (-50)]) }
/-- A finite point appended without fitting anything. -/
def callQuick : Call ℕ ℚ := { batch := some ([5], [.fin 3]), fit := .no, fitClf := false }
/-- `append_to_data(None, None)` with fit. -/
def callRefit : Call ℕ ℚ := { batch := none }

theorem exCfg_ok (b : Bool) : CfgOk (exCfg b) := by
  refine ⟨.inr ⟨20, rfl, by norm_num⟩, ?_⟩
  show (0 : ℚ) ≤ 1 / 1000000
  norm_num

/-- C10, C11: a history meeting the hypotheses (early return included) and what it stores. -/
example : ((run (exCfg true) ex0 [callA, callLow, callQuick, callRefit]).map
    fun s => (s.xAll, s.xTrain, s.yTrain)) =
    some ([1, 2, 3, 4, 5], [1, 3, 5], [.fin 1, .fin 2, .fin 3]) := by decide +kernel

example : ∀ c ∈ [callA, callLow, callQuick, callRefit], ∀ y ∈ c.ys, Good y := by
  intro c hc y hy
  simp only [List.mem_cons, List.not_mem_nil, or_false] at hc
  rcases hc with rfl | rfl | rfl | rfl <;>
    simp [Call.ys, callA, callLow, callQuick, callRefit] at hy
  · rcases hy with rfl | rfl | rfl <;> simp [Good]
  · subst hy; simp [Good]
  · subst hy; simp [Good]

/-- C11 with a threshold that would keep one point only. -/
example : ((run { exCfg true with thr := .fin 5 } ex0
    [{ batch := some ([1, 2, 3], [.fin 100, .fin 3, .fin 2]) }]).map fun s => s.yTrain) =
    some [.fin 100, .fin 3] := by decide +kernel

/-- C10_infinite_complement, C63: sets and sizes. -/
example : ((run (exCfg true) ex0 [callA, callLow]).map fun s => (trainInfinite (exCfg true) s).toOption) =
    some (some ([2, 4], [.negInf, .fin (-50)])) ∧
    ((run (exCfg true) ex0 [callA, callLow]).map fun s => nTotal (exCfg true) s) = some 4 := by
  decide +kernel

/-- **C10**, what is missing: after an append with `fit_classifier=False`, `X_train_infinite` raises. -/
theorem C10_infinite_stale_counterexample :
    ((run (exCfg true) ex0 [callA, callQuick]).map fun s =>
      match trainInfinite (exCfg true) s with
      | .error e => some e
      | .ok _ => none) = some (some .indexError) := by decide +kernel

/-- **C63** is false after an append with `fit_classifier=False`: four points appended, `n_total = 3`. -/
theorem C63_stale_counterexample :
    ((run (exCfg true) ex0 [callA, callQuick]).map fun s => (s.yAll.length, nTotal (exCfg true) s)) =
      some (4, 3) := by decide +kernel

/-- C12: example of the hypotheses. -/
example : ((run (exCfg true) ex0 [callA]).map fun s => (lastAppended (exCfg true) s, lastAppendedFinite s)) =
    some (([1, 2, 3], [.fin 1, .negInf, .fin 2]), ([1, 3], [.fin 1, .fin 2])) := by decide +kernel

/-- **C12** is false for empty batches (`last_appended` returns everything) and for batches without finite
points (`last_appended_finite` returns the whole training set), because of the slice `[-0:]`. -/
theorem C12_empty_batch_counterexample :
    ((run (exCfg true) ex0 [callA, callRefit]).map fun s => (lastAppended (exCfg true) s).1) =
      some [1, 2, 3] ∧
    ((run (exCfg true) ex0 [callA, callLow]).map fun s => (lastAppendedFinite s).1) = some [1, 3] := by
  decide +kernel

/-- C09: hypotheses of `C09_assertion_never_fires` are met by `exCfg`. -/
example : (∀ q xs ys m s, (exCfg true).fitY q xs ys = .ok (.aff m s) → 0 < s) ∧
    (∀ q xs ys, (exCfg true).fitY q xs ys ≠ .error .assertionError) := by
  constructor
  · intro q xs ys m s h
    simp [exCfg] at h
    linarith [h.2]
  · intro q xs ys; simp [exCfg]

/-- **C09** is false if a target is NaN: the assertion fires, because `_is_finite_raw` uses numpy's maximum
and `SVM.fit` Python's. -/
theorem C09_nan_counterexample :
    (append (exCfg true) ex0 { batch := some ([1, 2], [.fin 1, .nan]) }).2 = some .assertionError := by
  decide +kernel

/-- C70: a NaN makes `append_to_data` raise, but is stored, and then appending good points raises too. -/
example : (append (exCfg true) ex0 { batch := some ([1, 2], [.fin 1, .nan]) }).1.yAll = [.fin 1, .nan] ∧
    (append (exCfg true) (append (exCfg true) ex0 { batch := some ([1, 2], [.fin 1, .nan]) }).1
      callA).2 ≠ none := by decide +kernel

/-- **C13**, negation with witness: per-point noise levels raise `IndexError`. -/
theorem C13_pointwise_noise_counterexample :
    (append (exCfg true) ex0 { callA with noise := some (.array [1, 2, 3]) }).2 = some .indexError := by
  decide +kernel

/-- **C13**, atomicity is false: the failed call of the previous theorem has stored its points. -/
theorem C13_not_atomic_counterexample :
    (append (exCfg true) ex0 { callA with noise := some (.array [1, 2, 3]) }).2 ≠ none ∧
    (append (exCfg true) ex0 { callA with noise := some (.array [1, 2, 3]) }).1.xAll = [1, 2, 3] := by
  decide +kernel

/-- C13: a history meeting the hypotheses of `C13_aligned_partial`. -/
example : ((run (exCfg true) (State.init () (.aff 0 1) (.array []))
    [{ callA with noise := some (.array [1, 2, 3]) }, { callLow with noise := some (.scalar 7) }]).map
      fun s => s.noise) = some (.array [1, 2, 3, 7]) := by decide +kernel

/-- C13: a call as in `C13_pointwise_noise_never_works` that does succeed (no finite point in it). -/
example : ((run (exCfg true) ex0 [callA, { callLow with noise := some (.array [7]) }]).map
      fun s => (s.noise, s.yAll.length)) = some (.array [1, 1, 1, 1, 7], 4) := by decide +kernel

/-- C13: refused up front. -/
example : ∃ e, validateNoise (K := ℚ) (.scalar 1) (some (.array [1])) 2 = .error e := ⟨.valueError, rfl⟩

/-- C19: a history as in `C19_factors_fresh_partial`, with hyperparameters and factors. -/
example : ((run (exCfg true) ex0 [callA, callQuick, callRefit]).map fun s =>
    (s.theta, s.factors.map (·.theta), s.factors.map (·.xs))) = some (some 3, some 3, some [1, 3, 5]) := by
  decide +kernel

/-- **C19** is false for the documented option B: hyperparameter 3 stored, factors made with 2. -/
theorem C19_option_B_counterexample :
    ((run (exCfg true) ex0 [callA, { callQuick with fitClf := true }]).map fun s =>
      ((fitHyper (exCfg true) none s).1.theta, (fitHyper (exCfg true) none s).1.factors.map (·.theta))) =
      some (some 3, some 2) := by decide +kernel

/-- **C19** is false for the documented option C without classifier. -/
theorem C19_option_C_stale_counterexample :
    ((run (exCfg false) ex0 [{ batch := some ([1], [.fin 1]) }, callQuick, callRefit]).map fun s =>
      (s.theta, s.factors.map (·.theta))) = some (some 2, some 1) := by decide +kernel

/-- C66: hypotheses of `C66_consistent_partial` for `exCfgY`, and a history. -/
example : (∀ p p' xs ys, exCfgY.fitX p xs ys = exCfgY.fitX p' xs ys) ∧
    (∀ q q' xs ys, exCfgY.fitY q xs ys = exCfgY.fitY q' xs ys) ∧
    ((run exCfgY ex0 [callA, callLow]).map fun s => s.yTrain') = some [.fin (-1), .fin 0] :=
  ⟨fun _ _ _ _ => rfl, fun _ _ _ _ => rfl, by decide +kernel⟩

/-- **C66** is false in general: a quick append followed by a batch without finite points leaves a
transformed training set that does not belong to the current preprocessor. -/
theorem C66_stale_counterexample :
    ((run exCfgY ex0 [callA, callQuick, callLow]).map fun s =>
      (s.py, s.yTrain, s.yTrain')) =
      some (.aff 3 1, [.fin 1, .fin 2, .fin 3], [.fin (-1), .fin 0, .fin 1]) := by decide +kernel

/-- **C66/C13**: a new scalar noise level passed with a batch without finite points is recorded but the
noise variances in use are not updated. -/
theorem C66_noise_stale_counterexample :
    ((run (exCfg true) ex0 [callA, { callLow with noise := some (.scalar 9) }]).map fun s =>
      (s.noise, s.noiseVar)) = some (.scalar 9, [.fin 1, .fin 1]) := by decide +kernel

/-! ## Each theorem applied to concrete data -/

/-- A real number or `-inf`. -/
def goodB (y : Ext ℚ) : Bool := decide (y = .negInf) || y.isFinite

theorem good_of {y : Ext ℚ} (h : goodB y = true) : Good y := by
  cases y <;> simp [goodB, Ext.isFinite] at h <;> simp [Good]

/-- A history with all kinds of calls. -/
def exCalls : List (Call ℕ ℚ) := [callA, callLow, callQuick, callRefit]

theorem exCalls_good : ∀ c ∈ exCalls, ∀ y ∈ c.ys, Good y := fun c hc y hy =>
  good_of ((by decide +kernel : ∀ c ∈ exCalls, ∀ y ∈ c.ys, goodB y = true) c hc y hy)

theorem exRun : ∃ st, run (exCfg true) (State.init () (.aff 0 1) (.scalar 1)) exCalls = some st :=
  Option.isSome_iff_exists.1 (by decide +kernel)

/-- The state after the first call. -/
def exSt : State ℕ Unit ℕ ℚ := (append (exCfg true) ex0 callA).1

theorem exSt_ok : append (exCfg true) ex0 callA = (exSt, none) := Prod.ext rfl (by decide +kernel)

theorem exA_good : ∀ y ∈ callA.ys, Good y := exCalls_good callA (by simp [exCalls])

example : ∃ st, run (exCfg true) (State.init () (.aff 0 1) (.scalar 1)) exCalls = some st ∧ st.xAll = [1, 2, 3, 4, 5] ∧
    st.xTrain = (specTrain (exCfg true) st.xAll st.yAll).map Prod.fst := by
  obtain ⟨st, h⟩ := exRun
  obtain ⟨h1, -, -, h4, -⟩ := C10_training_partition (exCfg_ok true) () (.aff 0 1) (.scalar 1) exCalls (fun _ => exCalls_good) h
  exact ⟨st, h, h1, h4⟩

example : nTotal (exCfg true) exSt = exSt.yAll.length ∧ exSt.yTrain.length + (specInf (exCfg true) exSt.xAll exSt.yAll).length = exSt.yAll.length :=
  let h := C10_infinite_complement (exCfg_ok true) rfl (inv_init (exCfg true) () (.aff 0 1) (.scalar 1)) exA_good (.inl rfl) exSt_ok
  ⟨h.2.2, h.2.1⟩

example : ∃ st, run (exCfg true) (State.init () (.aff 0 1) (.scalar 1)) exCalls = some st ∧ nTotal (exCfg true) st = 5 := by
  obtain ⟨st, h⟩ := exRun
  exact ⟨st, h, C63_n_total_partial (exCfg_ok true) () (.aff 0 1) (.scalar 1) [callA, callLow, callQuick] callRefit exCalls_good (fun _ => .inl rfl) h⟩

example : ∃ st, run (exCfg true) (State.init () (.aff 0 1) (.scalar 1)) exCalls = some st ∧ min 2 (numReal st.yAll) ≤ st.yTrain.length := by
  obtain ⟨st, h⟩ := exRun
  exact ⟨st, h, (C11_keep_min_finite (exCfg_ok true) rfl () (.aff 0 1) (.scalar 1) exCalls exCalls_good h).1⟩

example : lastAppended (exCfg true) exSt = ([1, 2, 3], [.fin 1, .negInf, .fin 2]) :=
  C12_last_appended_partial (exCfg_ok true) (inv_init (exCfg true) () (.aff 0 1) (.scalar 1)) (fun _ => exA_good) (by simp [Call.ys, callA]) exSt_ok

open Classical in
example : (lastAppendedFinite exSt).1 = ((callA.xs.zip callA.ys).filter fun p => decide (KeptBy (exCfg true) callA.ys p.2)).map Prod.fst := by
  refine congrArg Prod.fst (C12_last_appended_finite_partial (exCfg_ok true) (inv_init (exCfg true) () (.aff 0 1) (.scalar 1)) (fun _ => exA_good) exSt_ok
    ⟨.fin 2, by simp [Call.ys, callA], fun _ => ⟨2, rfl, .inl ?_⟩⟩)
  intro w hw
  simp [State.init, Call.ys, callA] at hw
  rcases hw with rfl | rfl <;> simp [Within, exCfg] <;> norm_num

example : isFiniteRaw ((Ext.fin (20 : ℚ)).divFin (2 : ℚ)) (((Ext.fin (7 : ℚ)).subFin 3).divFin 2) (((Ext.fin (-12 : ℚ)).subFin 3).divFin 2) =
    isFiniteRaw (.fin (20 : ℚ)) (.fin 7) (.fin (-12)) := C09_raw_invariant (3 : ℚ) 2 (by norm_num) _ _ _

example : ([true, false, true] : List Bool)[2]? = some true :=
  C09_max_is_finite (ys := callA.ys) exA_good (T := .fin 20) (.inr ⟨20, rfl, by norm_num⟩) (mask := [true, false, true]) (by decide +kernel)
    (i := 2) (by decide) (v := 2) rfl (by
      intro w hw
      simp [Call.ys, callA] at hw
      rcases hw with rfl | rfl <;> norm_num)

example : ((Svm.init : Svm ℚ).fit (callA.ys.map fun y => (y.subFin 3).divFin 2) ((Ext.fin 20).divFin 2)).2 = .ok [true, false, true] := by
  obtain ⟨sv, f, h⟩ : ∃ sv f, (Svm.init : Svm ℚ).fit (callA.ys.map fun y => (y.subFin 3).divFin 2) ((Ext.fin 20).divFin 2) = (sv, .ok f) :=
    ⟨_, [true, false, true], Prod.ext rfl (by decide +kernel)⟩
  rw [h, C09_fit_agrees exA_good (T := .fin 20) (mask := [true, false, true]) (by decide +kernel) 3 2 (by norm_num) h]

example : (append (exCfg true) ex0 callA).2 ≠ some .assertionError :=
  C09_assertion_never_fires exA_good (by intro q xs ys m s h; simp [exCfg] at h; linarith [h.2]) (by intro q xs ys; simp [exCfg])

theorem exFit_pos : ∀ (q : PreY ℚ) (xs : List ℕ) (ys : List (Ext ℚ)) m s, (exCfg true).fitY q xs ys = .ok (.aff m s) → 0 < s := by
  intro q xs ys m s h
  simp [exCfg] at h
  linarith [h.2]

example : (append (exCfg true) ex0 { batch := some ([1, 2], [.fin 1, .posInf]) }).2 ≠ none :=
  C70_poisoned rfl (.inl rfl) ⟨.posInf, by simp [Call.ys], .inr rfl⟩ exFit_pos

example : (append (exCfg true) ([callA, callRefit, callLow].foldl (fun st c => (append (exCfg true) st c).1)
    (append (exCfg true) ex0 { batch := some ([1, 2], [.fin 1, .nan]) }).1) callA).2 ≠ none :=
  C70_never_recovers rfl exFit_pos _ ⟨.nan, by decide +kernel, .inl rfl⟩ [callA, callRefit, callLow] callA (.inl rfl)

example : ∃ st, run (exCfg true) (State.init () (.aff 0 1) (.array []))
    [{ callA with noise := some (.array [1, 2, 3]) }, { callLow with noise := some (.scalar 7) }] = some st ∧ st.noise = .array [1, 2, 3, 7] := by
  obtain ⟨st, h⟩ : ∃ st, run (exCfg true) (State.init () (.aff 0 1) (.array []))
      [{ callA with noise := some (.array [1, 2, 3]) }, { callLow with noise := some (.scalar 7) }] = some st :=
    Option.isSome_iff_exists.1 (by decide +kernel)
  exact ⟨st, h, (C13_aligned_partial () (.aff 0 1) _ h).1⟩

example : (append (exCfg true) exSt { callLow with noise := some (.array [7]) }).1.nLastFinite = 0 :=
  (C13_pointwise_noise_never_works (s := 1) (ks := [7]) (.inl (by decide +kernel)) rfl (Prod.ext rfl (by decide +kernel))).1

example : (append (exCfg true) exSt { callA with noise := some (.array [1, 2]) }).1 = exSt :=
  (C13_validation_atomic_partial exSt { callA with noise := some (.array [1, 2]) } (.inr (.inr ⟨.valueError, by decide +kernel⟩))).1

example : ∃ st, run (exCfg true) (State.init () (.aff 0 1) (.scalar 1)) exCalls = some st ∧ (st.yTrain = [] ∨ Fresh st) := by
  obtain ⟨st, h⟩ := exRun
  exact ⟨st, h, C19_factors_fresh_partial () (.aff 0 1) (.scalar 1) exCalls (fun h => absurd h (by decide)) h⟩

example : (fitHyper (exCfg true) none exSt).1.factors = exSt.factors := by
  refine (C19_option_B_stale ?_ (by decide +kernel) (Prod.ext rfl (by decide +kernel : (fitHyper (exCfg true) none exSt).2 = none))).1
  exact (append_fresh (fun h => absurd h (by decide)) (.inl rfl) exSt_ok).resolve_left (by decide +kernel)

example : Consistent (exCfg true) exSt := C66_consistent_after_finite_partial exSt_ok (by decide +kernel)

example : ∃ st, run exCfgY (State.init () (.aff 0 1) (.scalar 1)) [callA, callLow, callRefit] = some st ∧ Consistent exCfgY st := by
  obtain ⟨st, h⟩ : ∃ st, run exCfgY (State.init () (.aff 0 1) (.scalar 1)) [callA, callLow, callRefit] = some st :=
    Option.isSome_iff_exists.1 (by decide +kernel)
  have hok : CfgOk exCfgY := ⟨(exCfg_ok true).1, (exCfg_ok true).2⟩
  exact ⟨st, h, C66_consistent_partial (cfg := exCfgY) hok (fun _ _ _ _ => rfl) (fun _ _ _ _ => rfl) () (.aff 0 1) (.scalar 1) [callA, callLow, callRefit]
    (fun _ c hc => exCalls_good c (by simp [exCalls] at hc ⊢; tauto)) (by decide +kernel) h⟩

end GPry.Gpr
