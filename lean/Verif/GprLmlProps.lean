import Verif.GprLml
import Verif.GprFitProps
import Verif.GpLml
import Mathlib.Analysis.Complex.ExponentialBounds
import Mathlib.Analysis.Real.Pi.Bounds

set_option linter.all false

/-!
# The log-marginal likelihood that the regressor reports (C160)
-/

namespace GPry.GprLml

open GPry.Gpr (Err)
open GPry.GprFit (Cfg St Bounds fit)

variable {D K : Type} [Field K] [LinearOrder K]

/-- What is reported is the log-marginal likelihood of the training set at the present hyperparameters. -/
def Right (c : D → Cfg K) (r : Reg D K) : Prop := ∃ th, r.st.theta = some th ∧ r.reported = some ((c r.data).lml th)

/-- The optimisers return the value of the objective at their result. -/
def Honest (c : D → Cfg K) : Prop := ∀ d t b, ((c d).opt t b).2 = ((c d).lml ((c d).opt t b).1).neg

theorem neg_neg_ext (e : Ext K) : e.neg.neg = e := by
  cases e <;> simp [Ext.neg]

/-- **C160** (after a fit): a call that fits the hyperparameters leaves the right value, with or without an optimiser, whatever was reported before. -/
theorem C160_fit_partial (c : D → Cfg K) (hc : Honest c) (r r' : Reg D K) (f : D → D) (simple start : Bool) (n : Option ℕ) (b : Option (Bounds K))
    (h : step c r (.refit f simple start n b) = .ok r') : Right c r' := by
  simp only [step] at h
  cases hf : fit (c (f r.data)) simple start n b r.st with
  | error e => rw [hf] at h; cases h
  | ok p =>
    rw [hf] at h
    cases h
    unfold fit at hf
    dsimp only at hf
    generalize (if simple = true then 1 else n.getD (c (f r.data)).nRestarts) = N at hf
    generalize (N - if ((simple || start) && r.st.fitted) = true then 1 else 0) = J at hf
    split at hf
    · cases ht : r.st.theta with
      | none => rw [ht] at hf; cases hf
      | some th =>
        rw [ht] at hf
        cases hf
        exact ⟨th, rfl, rfl⟩
    · split at hf
      · cases hf
      · split at hf
        · cases hf
        · rename_i k hk
          split at hf
          · cases hf
          · rename_i o ho
            cases hf
            refine ⟨o.1, rfl, ?_⟩
            have hm := List.mem_of_getElem? ho
            rw [List.mem_map] at hm
            obtain ⟨t, -, rfl⟩ := hm
            show some (Ext.neg _) = _
            rw [hc, neg_neg_ext]

/-- A call that does not fit. -/
def Op.isKeep : Op D K → Prop
  | .refit .. => False
  | _ => True

theorem steps_append (c : D → Cfg K) (r : Reg D K) (a b : List (Op D K)) :
    steps c r (a ++ b) = match steps c r a with
      | .error e => .error e
      | .ok r' => steps c r' b := by
  induction a generalizing r with
  | nil => rfl
  | cons o a ih =>
    rw [List.cons_append, steps, steps]
    cases step c r o with
    | error e => rfl
    | ok r1 => exact ih r1

/-- **C160** (any sequence of calls): the hyperparameters and the value are those of the last call that fitted (or of the start, if none did), and the value
is the log-marginal likelihood of the training set after that call. -/
theorem C160_history_partial (c : D → Cfg K) (hc : Honest c) (r r' : Reg D K) (h0 : Right c r) (l : List (Op D K)) (h : steps c r l = .ok r') :
    ∃ l1 l2 r1, l = l1 ++ l2 ∧ (∀ o ∈ l2, o.isKeep) ∧ (l1 = [] ∨ ∃ o l0, l1 = l0 ++ [o] ∧ ¬ o.isKeep) ∧ steps c r l1 = .ok r1 ∧ Right c r1 ∧ r'.st = r1.st := by
  induction l using List.reverseRecOn generalizing r' with
  | nil =>
    cases h
    exact ⟨[], [], r, rfl, by simp, .inl rfl, rfl, h0, rfl⟩
  | append_singleton l o ih =>
    rw [steps_append] at h
    cases hs : steps c r l with
    | error e => rw [hs] at h; cases h
    | ok r2 =>
      rw [hs] at h
      dsimp only at h
      cases hk : step c r2 o with
      | error e => simp only [steps] at h; rw [hk] at h; cases h
      | ok r3 =>
        have h3 : r3 = r' := by
          simp only [steps] at h; rw [hk] at h; cases h; rfl
        subst h3
        have keepCase : o.isKeep → r3.st = r2.st → ∃ l1 l2 r1, l ++ [o] = l1 ++ l2 ∧ (∀ o ∈ l2, o.isKeep) ∧
            (l1 = [] ∨ ∃ o l0, l1 = l0 ++ [o] ∧ ¬ o.isKeep) ∧ steps c r l1 = .ok r1 ∧ Right c r1 ∧ r3.st = r1.st := fun hkeep hst => by
          obtain ⟨l1, l2, r1, e, hl2, hl1, hr1, hR, hst1⟩ := ih r2 hs
          refine ⟨l1, l2 ++ [o], r1, by rw [e, List.append_assoc], ?_, hl1, hr1, hR, hst.trans hst1⟩
          intro o' ho'
          rcases List.mem_append.1 ho' with h1 | h1
          · exact hl2 o' h1
          · rw [List.mem_singleton.1 h1]; exact hkeep
        cases o with
        | noFinite => cases hk; exact keepCase trivial rfl
        | keep f => cases hk; exact keepCase trivial rfl
        | refit f simple start n b =>
          refine ⟨l ++ [.refit f simple start n b], [], r3, by simp, by simp, .inr ⟨_, l, rfl, id⟩, ?_, C160_fit_partial c hc r2 r3 f simple start n b hk, rfl⟩
          rw [steps_append, hs]
          simp only [steps]
          rw [hk]

/-- **C160** (when it is right): after a call that keeps the hyperparameters, the value is right exactly if the new training set has the same
log-marginal likelihood as the old one. -/
theorem C160_keep_iff (c : D → Cfg K) (r r' : Reg D K) (h0 : Right c r) (f : D → D) (h : step c r (.keep f) = .ok r') :
    r'.reported = r.reported ∧ (Right c r' ↔ ∀ th, r.st.theta = some th → (c (f r.data)).lml th = (c r.data).lml th) := by
  cases h
  obtain ⟨th, hth, hv⟩ := h0
  refine ⟨rfl, ?_⟩
  constructor
  · rintro ⟨th', hth', hv'⟩ th'' h''
    have e1 : th' = th'' := by
      have := hth'.symm.trans h''
      cases this; rfl
    have e2 : th = th'' := by
      have := hth.symm.trans h''
      cases this; rfl
    subst e1 e2
    have : r.reported = some ((c (f r.data)).lml th) := hv'
    rw [hv] at this
    exact (Option.some.inj this).symm
  · intro hall
    refine ⟨th, hth, ?_⟩
    show r.reported = _
    rw [hv]
    exact congrArg some (hall th hth).symm

/-! ## False after points are added without a fit -/

section Real
open Matrix GPry.Gp

/-- Training set as a list of points with their values; one parameter, no noise, values not transformed. -/
def rawOf (l : List (ℝ × ℝ)) : Raw (Fin l.length) ℝ := ⟨fun i => l[i].1, fun i => l[i].2, fun _ => 0⟩

/-- Constant times RBF with `theta = [log c, log ell]`. -/
noncomputable def rbf (th : List ℝ) (x y : ℝ) : ℝ :=
  Real.exp (th.getD 0 0) * Real.exp (-(x - y) ^ 2 / (2 * Real.exp (th.getD 1 0) ^ 2))

/-- Log-marginal likelihood of `C154`, for an optimiser that stays where it starts. -/
noncomputable def exC (l : List (ℝ × ℝ)) : Cfg ℝ where
  optimizer := true
  nRestarts := 1
  theta0 := [0, 0]
  bounds := []
  unif := fun _ _ => 0
  opt := fun t _ => (t, (Ext.fin (lmlDet (rbf t) (Model.data ⟨rbf t, id, 0, 1⟩ (rawOf l)))).neg)
  lml := fun t => .fin (lmlDet (rbf t) (Model.data ⟨rbf t, id, 0, 1⟩ (rawOf l)))

theorem exC_honest : Honest exC := fun _ _ _ => rfl

theorem exC_one : (exC [(0, 0)]).lml [0, 0] = .fin (-(1 / 2) * Real.log (2 * Real.pi)) := by
  show Ext.fin (lmlDet _ _) = _
  congr 1
  unfold lmlDet
  have hy : (Model.data ⟨rbf [0, 0], id, 0, 1⟩ (rawOf [(0, 0)])).y = 0 := by
    ext i; simp [Model.data, rawOf]
  have hk : (Model.data ⟨rbf [0, 0], id, 0, 1⟩ (rawOf [(0, 0)])).kmat (rbf [0, 0]) = (1 : Matrix (Fin 1) (Fin 1) ℝ) := by
    ext i j
    fin_cases i; fin_cases j
    simp [Data.kmat, Model.data, rawOf, rbf]
  rw [hy, zero_dotProduct]
  have hd : ((Model.data ⟨rbf [0, 0], id, 0, 1⟩ (rawOf [(0, 0)])).kmat (rbf [0, 0])).det = 1 := by
    rw [hk]; exact det_one
  rw [hd]
  simp

theorem exC_two : (exC [(0, 0), (2, 0)]).lml [0, 0] = .fin (-(1 / 2) * Real.log (1 - Real.exp (-4)) - Real.log (2 * Real.pi)) := by
  show Ext.fin (lmlDet _ _) = _
  congr 1
  unfold lmlDet
  have hy : (Model.data ⟨rbf [0, 0], id, 0, 1⟩ (rawOf [(0, 0), (2, 0)])).y = 0 := by
    ext i
    change Fin 2 at i
    fin_cases i <;> simp [Model.data, rawOf]
  have hk : (Model.data ⟨rbf [0, 0], id, 0, 1⟩ (rawOf [(0, 0), (2, 0)])).kmat (rbf [0, 0]) =
      (!![1, Real.exp (-2); Real.exp (-2), 1] : Matrix (Fin 2) (Fin 2) ℝ) := by
    ext i j
    change Fin 2 at i j
    fin_cases i <;> fin_cases j <;> simp [Data.kmat, Model.data, rawOf, rbf] <;> norm_num
  rw [hy, zero_dotProduct]
  have hd : ((Model.data ⟨rbf [0, 0], id, 0, 1⟩ (rawOf [(0, 0), (2, 0)])).kmat (rbf [0, 0])).det = 1 - Real.exp (-4) := by
    rw [hk]
    refine (det_fin_two_of _ _ _ _).trans ?_
    rw [← Real.exp_add]
    norm_num
  rw [hd]
  simp

theorem exC_refit (l : List (ℝ × ℝ)) (th : List ℝ) (v : Option (Ext ℝ)) :
    fit (exC l) true true none none ⟨some th, true, v⟩ = .ok (⟨some th, true, some ((exC l).lml th)⟩, [th]) := by
  unfold fit
  simp only [exC, GprFit.startOf, List.range_succ, List.range_zero]
  simp [Batch.argmin, Batch.argminGo, Ext.neg, Ext.isNan, Ext.lt, GprFit.startOf]

/-- **C160** is false: the hyperparameters are fitted with one point, the value is right, and a second point is added without a fit. The old value is still
reported. -/
theorem C160_counterexample :
    ∃ (r : Reg (List (ℝ × ℝ)) ℝ), steps exC ⟨[], ⟨some [0, 0], true, none⟩⟩ [.refit (· ++ [(0, 0)]) true true none none] = .ok r ∧ Right exC r ∧
      ∃ r', step exC r (.keep (· ++ [(2, 0)])) = .ok r' ∧ r'.reported = r.reported ∧ ¬ Right exC r' := by
  have h0 : steps exC ⟨[], ⟨some [0, 0], true, none⟩⟩ [.refit (· ++ [(0, 0)]) true true none none] =
      .ok ⟨[(0, 0)], ⟨some [0, 0], true, some ((exC [(0, 0)]).lml [0, 0])⟩⟩ := by
    simp only [steps, step]
    rw [exC_refit]
    rfl
  have hR : Right exC ⟨[(0, 0)], ⟨some [0, 0], true, some ((exC [(0, 0)]).lml [0, 0])⟩⟩ := ⟨[0, 0], rfl, rfl⟩
  refine ⟨_, h0, hR, _, rfl, rfl, ?_⟩
  intro h
  have := ((C160_keep_iff exC _ _ hR (· ++ [(2, 0)]) rfl).2.1 h) [0, 0] rfl
  have e : (exC ([(0, 0)] ++ [(2, 0)])).lml [0, 0] = (exC [(0, 0)]).lml [0, 0] := this
  rw [show ([(0, 0)] ++ [(2, 0)] : List (ℝ × ℝ)) = [(0, 0), (2, 0)] from rfl, exC_one, exC_two] at e
  have e' := Ext.fin.inj e
  have h4 : Real.exp (-4) < 1 / 2 := by
    have : Real.exp (-4) ≤ Real.exp (-1) := Real.exp_le_exp.2 (by norm_num)
    have h1 := Real.exp_neg_one_lt_d9
    linarith
  have hlog : Real.log (1 - Real.exp (-4)) + Real.log (2 * Real.pi) = 0 := by linarith
  rw [← Real.log_mul (by linarith) (by positivity)] at hlog
  have hgt : 1 < (1 - Real.exp (-4)) * (2 * Real.pi) := by nlinarith [Real.pi_gt_three]
  linarith [Real.log_pos hgt]

/-- A fit, then three calls without (`C160_history_partial`): the second of them brings no finite point. -/
example : ∃ r', steps exC ⟨[(0, 0)], ⟨some [0, 0], true, some ((exC [(0, 0)]).lml [0, 0])⟩⟩
    [.refit (· ++ [(1, 0)]) true true none none, .keep (· ++ [(2, 0)]), .noFinite, .keep (· ++ [(3, 1)])] = .ok r' ∧
      r'.data = [(0, 0), (1, 0), (2, 0), (3, 1)] ∧ r'.reported = some ((exC [(0, 0), (1, 0)]).lml [0, 0]) := by
  refine ⟨⟨[(0, 0), (1, 0), (2, 0), (3, 1)], ⟨some [0, 0], true, some ((exC [(0, 0), (1, 0)]).lml [0, 0])⟩⟩, ?_, rfl, rfl⟩
  simp only [steps, step]
  rw [exC_refit]
  rfl

end Real

end GPry.GprLml
