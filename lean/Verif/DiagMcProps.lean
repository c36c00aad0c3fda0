import Verif.CovProps2

set_option linter.all false

/-!
# Diagnosis of a sample and comparison with the training set in one dimension (C105)
-/

namespace GPry.Cov

section
variable {K : Type*} [Field K] [LinearOrder K] [IsStrictOrderedRing K] {d : ℕ}

theorem ndim_fromSamples {X : List (Fin d → K)} {w : Option (List K)} {r : MeanCov d K} (h : fromSamples X w = .ok r) :
    r.cov.ndim = if d = 1 then 0 else 2 := by
  unfold fromSamples at h
  cases ha : average X w with
  | error e => rw [ha] at h; cases h
  | ok m =>
    rw [ha] at h
    cases hc : npCov X 1 w with
    | error e => rw [hc] at h; cases h
    | ok c =>
      rw [hc] at h
      cases h
      cases w with
      | none => cases hc; rfl
      | some w =>
        simp only [npCov] at hc
        split_ifs at hc <;> (cases hc; rfl)

theorem ndim_fromEvals {ex : K → K} {X : List (Fin d → K)} {y : List (Ext K)} {r : MeanCov d K} (h : fromEvals ex X y = .ok r) :
    r.cov.ndim = if d = 1 then 0 else 2 := by
  have fw : ∀ (X : List (Fin d → K)) (w : List (Ext K)), fromWeights X w = .ok r → r.cov.ndim = if d = 1 then 0 else 2 := by
    intro X w h
    unfold fromWeights at h
    cases hf : finites w with
    | none => rw [hf] at h; cases h; rfl
    | some w =>
      rw [hf] at h
      dsimp only at h
      cases ha : average X (some w) with
      | error e => rw [ha] at h; cases h
      | ok m =>
        rw [ha] at h
        dsimp only at h
        cases hc : npCov X 0 (some w) with
        | error e => rw [hc] at h; cases h
        | ok c =>
          rw [hc] at h
          cases h
          simp only [npCov] at hc
          split_ifs at hc <;> (cases hc; rfl)
  unfold fromEvals at h
  cases hm : Ext.pyMax y with
  | none => rw [hm] at h; cases h
  | some m =>
    rw [hm] at h
    dsimp only at h
    split at h
    · exact fw _ _ h
    · cases h
    · cases h

theorem square_two {c : CovMat d K} (h : c.ndim = 2) : square c = .ok c.val := by simp [square, h]

/-- C105: in two or more dimensions, the diagnosis is the conjunction of the two tests: mean of the training set within
the 50% credible region of the sample (but not exactly at its mean), and, if the acquisition has a sample, divergence
with respect to it smaller than the dimension. -/
theorem C105_diagnosis (D : Diag d K) (hd : d ≠ 1) {X : List (Fin d → K)} {w : Option (List K)} {Xt : List (Fin d → K)}
    {yt : List (Ext K)} {Xa : List (Fin d → K)} {wa : List K} {mc tr acq : MeanCov d K} {c k : Ext K}
    (h1 : fromSamples X w = .ok mc) (h2 : fromEvals D.ex Xt yt = .ok tr) (h3 : fromAcquisition Xa wa = .ok acq)
    (hc : D.cred mc.mean tr.mean mc.cov.val = .ok c) (hk : D.kl mc.mean mc.cov.val acq.mean acq.cov.val = .ok k) :
    (∃ b, diagnose D X w Xt yt none = .ok b ∧ (b = true ↔ Ext.lt (.fin 0) c = true ∧ Ext.lt c (.fin (1 / 2)) = true)) ∧
    ∃ b, diagnose D X w Xt yt (some (Xa, wa)) = .ok b ∧
      (b = true ↔ (Ext.lt (.fin 0) c = true ∧ Ext.lt c (.fin (1 / 2)) = true) ∧ Ext.lt k (.fin (d : K)) = true) := by
  have n1 : mc.cov.ndim = 2 := by rw [ndim_fromSamples h1, if_neg hd]
  have n3 : acq.cov.ndim = 2 := by
    unfold fromAcquisition at h3
    split at h3
    · cases h3
    · split at h3
      · cases h3
      · cases h3; rfl
  have hdg : diagnose1 D X w Xt yt = .ok (mc, credOk c) := by
    simp only [diagnose1, h1, h2, alignment, square_two n1, hc]
  refine ⟨⟨credOk c, by simp only [diagnose, hdg], by simp [credOk]⟩,
    ⟨credOk c && Ext.lt k (.fin (d : K)), ?_, by simp [credOk]⟩⟩
  simp only [diagnose, hdg, diagnose2, h3, klNorm, square_two n1, square_two n3, hk]

/-- C105: if mean and covariance of the sample of the acquisition cannot be computed because a weight is negative, the
first test decides. -/
theorem C105_acquisition_failure (D : Diag d K) {X : List (Fin d → K)} {w : Option (List K)} {Xt : List (Fin d → K)}
    {yt : List (Ext K)} {Xa : List (Fin d → K)} {wa : List K} (hl : wa.length = Xa.length) (h0 : wa.sum ≠ 0)
    (hn : ∃ a ∈ wa, a < 0) : diagnose D X w Xt yt (some (Xa, wa)) = diagnose D X w Xt yt none := by
  have e : (wa.any fun a => decide (a < 0)) = true := by
    obtain ⟨a, ha, h⟩ := hn
    simp only [List.any_eq_true, decide_eq_true_eq]
    exact ⟨a, ha, h⟩
  have : fromAcquisition Xa wa = .error .value := by
    simp [fromAcquisition, average, npCov, hl, h0, e]
  unfold diagnose
  cases diagnose1 D X w Xt yt with
  | error e => rfl
  | ok q => simp only [diagnose2, this]

/-- C105: with one parameter the diagnosis never succeeds nor fails: it always raises an exception, whatever the sample,
the training set and the acquisition. If the two means can be computed, the exception is `LinAlgError`. -/
theorem C105_one_dimension_counterexample (D : Diag 1 K) (X : List (Fin 1 → K)) (w : Option (List K)) (Xt : List (Fin 1 → K))
    (yt : List (Ext K)) (acq : Option (List (Fin 1 → K) × List K)) :
    (∃ e, diagnose D X w Xt yt acq = .error e) ∧
    ∀ mc tr, fromSamples X w = .ok mc → fromEvals D.ex Xt yt = .ok tr → diagnose D X w Xt yt acq = .error .linAlg := by
  have main : ∀ mc tr, fromSamples X w = .ok mc → fromEvals D.ex Xt yt = .ok tr →
      diagnose1 D X w Xt yt = .error .linAlg := by
    intro mc tr h1 h2
    have : square mc.cov = .error .linAlg := by simp [square, ndim_fromSamples h1]
    simp only [diagnose1, h1, h2, alignment, this]
  refine ⟨?_, fun mc tr h1 h2 => by simp only [diagnose, main mc tr h1 h2]⟩
  cases h1 : fromSamples X w with
  | error e => exact ⟨e, by simp only [diagnose, diagnose1, h1]⟩
  | ok mc =>
    cases h2 : fromEvals D.ex Xt yt with
    | error e => exact ⟨e, by simp only [diagnose, diagnose1, h1, h2]⟩
    | ok tr => exact ⟨.linAlg, by simp only [diagnose, main mc tr h1 h2]⟩

/-- The comparison of `GaussianKLTrain` (convergence.py:621): `none` is an exception. -/
def klTrain (D : Diag d K) (a t : MeanCov d K) : Option (Ext K) := (klNorm D.kl a.mean a.cov t.mean t.cov).toOption

theorem klTrain_one (D : Diag 1 K) {ex : K → K} {X : List (Fin 1 → K)} {y : List (Ext K)} {t : MeanCov 1 K}
    (h : fromEvals ex X y = .ok t) (a : MeanCov 1 K) : klTrain D a t = none := by
  have : square t.cov = .error .linAlg := by simp [square, ndim_fromEvals h]
  simp [klTrain, klNorm, this, Except.toOption]

/-- C105: with one parameter, no check of `GaussianKLTrain` ever succeeds: in a history of any length, every call fails
(`ConvergenceCheckError`, treated by the runner as not converged). A call is the sample (if it can be obtained) and the
training set. -/
theorem C105_train_counterexample (D : Diag 1 K) (ex : K → K) (limit : K) (limitTimes : ℕ)
    (calls : List (Option (MeanCov 1 K) × List (Fin 1 → K) × List (Ext K))) (s : Conv.KL (MeanCov 1 K) K) :
    ∀ o ∈ (Conv.runCalls (fun s (c : Option (MeanCov 1 K) × List (Fin 1 → K) × List (Ext K)) =>
      Conv.KL.converged limit limitTimes (Conv.KL.train (klTrain D) none s c.1 (fromEvals ex c.2.1 c.2.2).toOption)) s calls).2,
      o = .error .check := by
  induction calls generalizing s with
  | nil => simp [Conv.runCalls]
  | cons c calls ih =>
    intro o ho
    rw [Conv.runCalls] at ho
    rcases List.mem_cons.1 ho with h | h
    · rw [h]
      obtain ⟨sample, X, y⟩ := c
      cases sample with
      | none => simp [Conv.KL.train, Conv.KL.converged]
      | some m =>
        cases ht : fromEvals ex X y with
        | error e => simp [ht, Except.toOption, Conv.KL.train, Conv.KL.converged]
        | ok t => simp [ht, Except.toOption, Conv.KL.train, Conv.KL.converged, klTrain_one D ht]
    · exact ih _ o h

end

/-! ## In several processes -/

open Spmd Prog

/-- A result of the diagnosis as a program (the exception leaves the process). -/
def liftErr {A : Type} : Except Err A → Except Exc A
  | .error e => .error (.other "diagnosis")
  | .ok a => .ok a

section
variable {K : Type} [Field K] [LinearOrder K] {d : ℕ}

/-- run.py:1758-1770: the first test, in the main process. -/
def diagStep1 (D : Diag d K) (X : List (Fin d → K)) (w : Option (List K)) (Xt : List (Fin d → K)) (yt : List (Ext K)) (r : ℕ) :
    Except Exc (Option (MeanCov d K × Bool)) :=
  if r = 0 then liftErr ((diagnose1 D X w Xt yt).map some) else .ok none

/-- run.py:1774-1782: the second test, in the main process. -/
def diagStep2 (D : Diag d K) (Xa : List (Fin d → K)) (wa : List K) (s : Bool) : Option (MeanCov d K × Bool) → Except Exc Bool
  | some q => liftErr (diagnose2 D q.1 s Xa wa)
  | none => .ok s

/-- run.py:1747-1784 `diagnose_last_mc_sample`: the main process makes the two tests, and shares the outcome of each. -/
def diagnoseMPI (D : Diag d K) (X : List (Fin d → K)) (w : Option (List K)) (Xt : List (Fin d → K)) (yt : List (Ext K))
    (acq : Option (List (Fin d → K) × List K)) (r : ℕ) : Prog Exc Bool := do
  let q ← Prog.fin (diagStep1 D X w Xt yt r)
  let s ← share 0 ((q.map Prod.snd).getD false)
  match acq with
  | none => pure s
  | some (Xa, wa) => do
    let s ← Prog.fin (diagStep2 D Xa wa s q)
    share 0 s

end

section
variable {K : Type} [Field K] [LinearOrder K] [IsStrictOrderedRing K] {d p : ℕ}

/-- C105: if the diagnosis does not raise, all processes get the outcome of the main one. -/
theorem C105_mpi (hp : 0 < p) (D : Diag d K) {X : List (Fin d → K)} {w : Option (List K)} {Xt : List (Fin d → K)}
    {yt : List (Ext K)} {acq : Option (List (Fin d → K) × List K)} {b : Bool} (h : diagnose D X w Xt yt acq = .ok b) :
    Runs (fun r : Fin p => diagnoseMPI D X w Xt yt acq r) fun _ => .ok b := by
  cases h1 : diagnose1 D X w Xt yt with
  | error e => simp [diagnose, h1] at h
  | ok q =>
    obtain ⟨mc, s⟩ := q
    have e1 : Runs (fun r : Fin p => (Prog.fin (diagStep1 D X w Xt yt r) : Prog Exc _))
        fun r => .ok (if r.val = 0 then some (mc, s) else none) := by
      have : (fun r : Fin p => diagStep1 D X w Xt yt r.val) = fun r => .ok (if r.val = 0 then some (mc, s) else none) := by
        funext r
        by_cases hr : r.val = 0 <;> simp [diagStep1, hr, h1, liftErr, Except.map]
      have h2 := Runs.fin (fun r : Fin p => diagStep1 D X w Xt yt r.val)
      rw [this] at h2
      simpa only [this, funext_iff] using h2
    refine Runs.bind e1 (Runs.bind (runs_share ⟨0, hp⟩ fun r => ((if r.val = 0 then some (mc, s) else none).map Prod.snd).getD false) ?_)
    cases acq with
    | none =>
      simp [diagnose, h1] at h
      simpa [h] using Runs.pure (p := p) (E := Exc) (fun _ => b)
    | some a =>
      obtain ⟨Xa, wa⟩ := a
      simp only [diagnose, h1] at h
      have e2 : Runs (fun r : Fin p => (Prog.fin (diagStep2 D Xa wa s (if r.val = 0 then some (mc, s) else none)) : Prog Exc _))
          fun r => .ok (if r.val = 0 then b else s) := by
        have : (fun r : Fin p => diagStep2 D Xa wa s (if r.val = 0 then some (mc, s) else none)) = fun r => .ok (if r.val = 0 then b else s) := by
          funext r
          by_cases hr : r.val = 0 <;> simp [diagStep2, hr, h, liftErr]
        have h2 := Runs.fin (fun r : Fin p => diagStep2 D Xa wa s (if r.val = 0 then some (mc, s) else none))
        rw [this] at h2
        simpa only [this, funext_iff] using h2
      simpa using Runs.bind (by simpa using e2) (runs_share (E := Exc) (⟨0, hp⟩ : Fin p) fun r => if r.val = 0 then b else s)

/-- C105: with one parameter and more than one process, the diagnosis hangs: the main process leaves with an exception
while the others wait for it. -/
theorem C105_mpi_deadlock_counterexample (hp : 1 < p) (D : Diag 1 K) (X : List (Fin 1 → K)) (w : Option (List K))
    (Xt : List (Fin 1 → K)) (yt : List (Ext K)) (acq : Option (List (Fin 1 → K) × List K)) :
    Deadlocks (fun r : Fin p => diagnoseMPI D X w Xt yt acq r) := by
  obtain ⟨e, he⟩ := (C105_one_dimension_counterexample D X w Xt yt none).1
  have h1 : ∃ e, diagnose1 D X w Xt yt = .error e := by
    cases h : diagnose1 D X w Xt yt with
    | error e => exact ⟨e, rfl⟩
    | ok q => simp [diagnose, h] at he
  obtain ⟨e', he'⟩ := h1
  refine deadlocks_of_ended ⟨0, by omega⟩ ⟨1, hp⟩ (.error (.other "diagnosis")) ?_ ?_
  · simp only [diagnoseMPI, diagStep1, if_true, he', Except.map, liftErr]
    rfl
  · intro y hy
    have : (diagnoseMPI D X w Xt yt acq 1).kind = .bcast := rfl
    rw [show diagnoseMPI D X w Xt yt acq 1 = Prog.fin y from hy] at this
    cases y <;> cases this

end

/-! ## Examples -/

/-- tests that always give the same numbers -/
def exDiag (d : ℕ) : Diag d ℚ := ⟨exExp, fun _ _ _ _ => .ok (.fin (1 / 10)), fun _ _ _ => .ok (.fin (1 / 4))⟩

example : diagnose (exDiag 2) exX (some [2, 0, 1]) exX [.fin 5, .negInf, .fin 6] (some (exX, [1, 1, 0])) = .ok true := by
  decide +kernel

example : diagnose (exDiag 1) [![0], ![1], ![3]] (some [2, 1, 1]) [![0], ![1]] [.fin 5, .fin 6] none = .error .linAlg := by
  decide +kernel

example : (([1, -1, 3] : List ℚ).length = exX.length) ∧ ([1, -1, 3] : List ℚ).sum ≠ 0 ∧ ∃ a ∈ ([1, -1, 3] : List ℚ), a < 0 := by
  decide +kernel

/-- C105: with the numbers `1/4` and `1/10` the sample is accepted. -/
example : diagnose (exDiag 2) exX (some [2, 0, 1]) exX [.fin 5, .negInf, .fin 6] (some (exX, [1, 1, 0])) = .ok true := by
  have h1 := fromSamples_some exX [2, 0, 1] rfl (by decide +kernel) (by decide +kernel)
  obtain ⟨mc, h1⟩ : ∃ mc, fromSamples exX (some [2, 0, 1]) = .ok mc := ⟨_, h1⟩
  obtain ⟨tr, h2, -⟩ := C104_evals exExp exX [.fin 5, .negInf, .fin 6] rfl (by simp [NotPos]) ⟨5, by simp⟩ exExp_nonneg (by decide +kernel)
  obtain ⟨acq, h3⟩ : ∃ acq, fromAcquisition exX [1, 1, 0] = .ok acq := by
    rcases h : fromAcquisition exX [1, 1, 0] with e | a
    · exact absurd (show (fromAcquisition exX [1, 1, 0]).isOk = true by decide +kernel) (by rw [h]; simp [Except.isOk, Except.toBool])
    · exact ⟨a, rfl⟩
  obtain ⟨b, hb, hbt⟩ := (C105_diagnosis (exDiag 2) (by decide) h1 h2 h3 (c := .fin (1 / 4)) (k := .fin (1 / 10)) rfl rfl).2
  rw [hb, hbt.mpr (by decide +kernel)]

/-- C105: a negative weight in the acquisition sample: that sample is left out. -/
example : diagnose (exDiag 2) exX (some [2, 0, 1]) exX [.fin 5, .negInf, .fin 6] (some (exX, [1, -1, 3])) =
    diagnose (exDiag 2) exX (some [2, 0, 1]) exX [.fin 5, .negInf, .fin 6] none :=
  C105_acquisition_failure _ rfl (by decide +kernel) (by decide +kernel)

example : Runs (fun r : Fin 3 => diagnoseMPI (exDiag 2) exX (some [2, 0, 1]) exX [.fin 5, .negInf, .fin 6] (some (exX, [1, 1, 0])) r) fun _ => .ok true :=
  C105_mpi (by decide) (exDiag 2) (by decide +kernel)

end GPry.Cov
