import Verif.AcqInitProps
import Verif.GprFitProps
import Verif.DiagProps
import Verif.InitDupProps
import Verif.FiguresProps
import Verif.PreprocProps

set_option linter.all false

/-!
# Exceptions and verdicts, exactly
-/

namespace GPry.AcqInit

/-- **C112**, gp_acquisition.py:251-258: the optimizer that needs gradients is accepted if all parts of the acquisition function have them, and refused with
`ValueError` otherwise. -/
theorem C112_refused {f : GAf} (h : Made f) :
    chooseOptimizer f (.str "fmin_l_bfgs_b") = if f.allLeaves then .ok (.str "fmin_l_bfgs_b") else .error .valueError := by
  rw [← C112_gradient h]
  rfl

example : chooseOptimizer (GAf.mkOp (.leaf true) (.leaf false)) (.str "fmin_l_bfgs_b") = .error .valueError :=
  (C112_refused (.op (.leaf _) (.leaf _))).trans rfl

end GPry.AcqInit

namespace GPry.GprFit

variable {K : Type} [Field K] [LinearOrder K]

/-- **C101**, gpr.py:329-349: with arguments that are right otherwise, a kernel that is not known -- by its name, as the key of a dictionary, or a dictionary with
another number of keys -- is refused with `ValueError`. -/
theorem C101_kernel_refused (deltaLogp : K → ℕ → K) (lower : String → String) (a : Args K) (n : ℕ) (hd : a.dim = some n) (f : K) (hf : a.clip = some f)
    (hf1 : 1 ≤ f) (m : ℕ) (hk : a.keep = .ok m) (t : Option K) (ht : a.threshold deltaLogp = .ok t) (hker : ¬ KernOk lower a.kernel) :
    init deltaLogp lower a = .error .valueError := by
  have hkern : a.kern lower = .error .valueError := by
    unfold Args.kern
    cases h : a.kernel with
    | object => rw [h] at hker; exact absurd trivial hker
    | name s =>
      rw [h] at hker
      simp only [hd]
      exact if_neg hker
    | dict keys =>
      rw [h] at hker
      match keys, hker with
      | [], _ => rfl
      | [s], hker =>
        simp only [hd]
        exact if_neg fun hc => hker ⟨s, rfl, hc⟩
      | _ :: _ :: _, _ => rfl
  unfold init
  rw [hf]
  dsimp only
  rw [if_neg (not_lt.2 hf1), hk]
  dsimp only
  rw [ht]
  dsimp only
  rw [hkern]

example : init (fun (v : ℚ) (n : ℕ) => v * n) exLower { exA with kernel := .dict ["poly"] } = .error .valueError :=
  C101_kernel_refused _ _ _ 3 rfl (11 / 10) rfl (by norm_num) 3 rfl (some 60) (by decide +kernel) (by
    rintro ⟨s, hs, h⟩
    cases hs
    revert h
    decide +kernel)

end GPry.GprFit

namespace GPry.Diag

variable {K B : Type} [LinearOrder K]

/-- **C138**, diag.py:44-58: what the verdict on the classifier means: the values that it was trained with, those of the regressor and those that it predicts
for the points of the full training set agree, and all points marked as in the training set are above the threshold. -/
theorem C138_verdict (d : Data K) :
    (selfConsistent d = .ok true ↔ select d.yAll (inGP d) ≠ [] ∧ d.yFinite = d.isFinite ∧ d.yFinite = d.predicted ∧
      ∀ y ∈ select d.yAll (inGP d), d.threshold < y) ∧
    (selfConsistent d = .error .valueError ↔ select d.yAll (inGP d) = []) := by
  unfold selfConsistent
  cases h : (select d.yAll (inGP d)).min? with
  | none =>
    have := List.min?_eq_none_iff.1 h
    simp [this]
  | some m =>
    have hne : select d.yAll (inGP d) ≠ [] := by
      intro hc
      rw [hc] at h
      simp at h
    obtain ⟨hm, hle⟩ := List.min?_eq_some_iff.1 h
    constructor
    · simp only [Except.ok.injEq, Bool.and_eq_true, decide_eq_true_eq]
      constructor
      · rintro ⟨⟨h1, h2⟩, h3⟩
        exact ⟨hne, h1, h2, fun y hy => lt_of_lt_of_le h3 (hle y hy)⟩
      · rintro ⟨-, h1, h2, h3⟩
        exact ⟨⟨h1, h2⟩, h3 m hm⟩
    · simp [hne]

example : selfConsistent exData = .ok false ∧ selfConsistent { exData with yAll := [1, 2, 3] } = .ok true := by decide

/-- **C138**, diag.py:154-217: figures of the samples are made for NORA only, if asked for and if the sample is not a reweighted one; then there is one of the
samples with `GetDist`, unless it raises, and one of the contours in two dimensions. -/
theorem C138_samples (g : Sig) (w : World K) (s : St B) :
    (¬ (w.plotMc = true ∧ w.isNora = true ∧ w.reweighted ≠ some true) → mcPart g w s = (s, none)) ∧
    (w.plotMc = true → w.isNora = true → w.reweighted ≠ some true → "model" ∈ g.attrs → w.mcSamples = none → w.triangle = none → w.contours = none →
      (mcPart g w s).2 = none ∧ (mcPart g w s).1.files = s.files ++ if w.dim = 2 then ["NORA", "contours"] else ["NORA"]) := by
  constructor
  · intro h
    unfold mcPart
    rw [if_neg]
    simpa using h
  · intro h1 h2 h3 h4 h5 h6 h7
    unfold mcPart attr
    rw [if_pos (by simp [h1, h2, h3]), if_pos h4]
    simp only [orElse, h5, h6, h7]
    split <;> simp

example : (mcPart { real with attrs := "model" :: real.attrs } (exWorld none) (⟨0, false, [], []⟩ : St ℕ)).1.files = ["NORA", "contours"] :=
  ((C138_samples _ (exWorld none) (⟨0, false, [], []⟩ : St ℕ)).2 rfl rfl (by decide) (by decide) rfl rfl rfl).2.trans rfl

end GPry.Diag

namespace GPry.Rng

/-- **C162** (seed): with a generator as seed too, a regressor has a source of random numbers for the classifier exactly if a classifier was asked for. -/
theorem C162_generator_classifier (i : ℕ) (c : Cell) (svm : Bool) : (constructGiven i c svm).svm.isSome = svm := by
  cases svm <;> rfl

/-- **C137**: after resuming, the global generator of a process is at its beginning. -/
theorem C137_resume_global (run i : ℕ) (saved : Proc) (hg : saved.gpr = .none) (n : ℕ) :
    (fit (resume run i saved) n).2 = (List.range' 0 n).map fun j => (.glob i, j) := by
  have h0 : (resume run i saved).gpr = .none ∧ (resume run i saved).heap[0]? = some ⟨.glob i, 0⟩ := by
    unfold resume receive copySrc
    rw [hg]
    cases saved.svm with
    | none => exact ⟨rfl, rfl⟩
    | some s => cases s <;> exact ⟨rfl, rfl⟩
  unfold fit check
  rw [h0.1]
  simp [ref, draw, h0.2]

example : (fit (resume 3 1 ⟨[⟨.glob 0, 5⟩, ⟨.child 2 0, 7⟩], 1, .none, Option.none⟩) 2).2 = [(.glob 1, 0), (.glob 1, 1)] := by decide

end GPry.Rng

namespace GPry.Fig

/-- **C130**, plots.py:389-395: without training points the slices at a reference point raise `ValueError` (the largest of no distances). -/
theorem C130_no_points_counterexample {d : ℕ} (hd : 2 ≤ d) (x : Fin d → ℝ) (hasRef : Bool) : plotRef (some x) hasRef [] = .error .valueError := by
  unfold plotRef
  rw [subplots, if_neg (by omega), if_neg (by omega), if_pos rfl]
  simp only [bind, Except.bind]
  obtain ⟨n, rfl⟩ : ∃ n, d = n + 1 := ⟨d - 1, by omega⟩
  rw [List.finRange_succ, refLoop, Axes.at1, if_pos (by simp)]
  rfl

example : plotRef (d := 2) (some ![1, 2]) true [] = .error .valueError := C130_no_points_counterexample le_rfl _ _

end GPry.Fig
