import Verif.Resume
import Verif.RunProps2

set_option linter.all false

/-!
# Interrupting and resuming a run (C161)
-/

namespace GPry.Run

variable {G X : Type*} {o : Opts} {mcOpts : Bool} {nT nF : G → ℕ} {steps : ℕ → G → Step G X}

/-- `iterN` is the loop, if it comes to an end. -/
theorem loop_iterN (n : ℕ) (st : St G X) :
    loop o mcOpts nT nF steps n st = match iterN o mcOpts nT nF steps n st with
      | (st', some e) => some (st', e)
      | (_, none) => none := by
  induction n generalizing st with
  | zero => rfl
  | succ n ih =>
    rw [loop, iterN]
    split
    · generalize iterate o mcOpts (steps st.iter st.gpr) st = r
      obtain ⟨st', c⟩ := r
      cases c with
      | next => exact ih st'
      | break_ => rfl
      | raise e => rfl
    · rfl

theorem iterate_after (old st : St G X) (s : Step G X) :
    iterate o mcOpts s (old.after st) = ((old.after (iterate o mcOpts s st).1), (iterate o mcOpts s st).2) := by
  unfold iterate St.after
  dsimp only
  split
  · split <;> rfl
  · cases s.fit st.gpr with
    | error e => simp [List.append_assoc, Nat.add_assoc]
    | ok g =>
      dsimp only
      cases s.conv <;> cases mcOpts <;> simp [Event.shift, List.append_assoc, Nat.add_assoc]

/-- **C161** (what continues): let a run be interrupted in a state `old` without failed acquisitions, not converged. If the components answer in iteration `i`
of the resumed run as they would have in iteration `old.iter + i`, then after any number of iterations the state is that of the run without
interruption: the same surrogate, evaluations, events, and the same end. -/
theorem C161_continue_partial (old : St G X) (hr : old.resamples = 0) (hc : old.hasConverged = false) (n : ℕ) :
    iterN o mcOpts nT nF steps n old =
      (old.after (iterN o mcOpts nT nF (fun i => steps (old.iter + i)) n (.start old.gpr)).1,
        (iterN o mcOpts nT nF (fun i => steps (old.iter + i)) n (.start old.gpr)).2) := by
  have gen : ∀ (n : ℕ) (st : St G X), iterN o mcOpts nT nF steps n (old.after st) =
      (old.after (iterN o mcOpts nT nF (fun i => steps (old.iter + i)) n st).1, (iterN o mcOpts nT nF (fun i => steps (old.iter + i)) n st).2) := by
    intro n
    induction n with
    | zero => intro st; rfl
    | succ n ih =>
      intro st
      rw [iterN, iterN]
      have e1 : (old.after st).gpr = st.gpr := rfl
      have e2 : (old.after st).hasConverged = st.hasConverged := rfl
      have e3 : (old.after st).iter = old.iter + st.iter := rfl
      rw [e1, e2, e3]
      split
      · rw [iterate_after]
        generalize iterate o mcOpts (steps (old.iter + st.iter) st.gpr) st = r
        obtain ⟨st', c⟩ := r
        cases c with
        | next => exact ih st'
        | break_ => rfl
        | raise e => rfl
      · rfl
  have h := gen n (.start old.gpr)
  rw [← h]
  congr 1
  unfold St.after St.start
  rcases old with ⟨g, hcv, rs, it, tr, ev⟩
  simp only at hr hc
  subst hr hc
  simp

/-- What is saved: after an iteration that evaluated points there are no failed acquisitions, so `C161_continue_partial` applies unless it has converged. -/
theorem C161_saved (s : Step G X) (st st' : St G X) (h : iterate o mcOpts s st = (st', .next)) (he : st'.evals ≠ st.evals) : st'.resamples = 0 := by
  unfold iterate at h
  dsimp only at h
  split at h
  · split at h
    · cases h
    · cases h; exact absurd rfl he
  · cases hf : s.fit st.gpr with
    | error e => rw [hf] at h; cases h
    | ok g =>
      rw [hf] at h
      dsimp only at h
      split at h
      · split at h
        · cases h; rfl
        · cases h
      · cases h; rfl

/-- **C161** is false of a run that has converged: saved as such, it is over; resumed, it acquires and evaluates again. -/
theorem C161_converged_counterexample (old : St G X) (hc : old.hasConverged = true) (hT : 0 < o.maxTotal - nT old.gpr) (hF : 0 < o.maxFinite - nF old.gpr)
    (hs : max 1 (o.nAcq / 2) ≤ ((steps 0 old.gpr).cands.length : ℤ)) (n : ℕ) :
    iterN o mcOpts nT nF steps (n + 1) old = (old, some .finished) ∧
    ∃ l, (iterN o mcOpts nT nF steps (n + 1) (.start old.gpr)).1.evals = (steps 0 old.gpr).cands ++ l ∧ (steps 0 old.gpr).cands ≠ [] := by
  refine ⟨by rw [iterN, if_neg (by simp [hc])], ?_⟩
  have hne : (steps 0 old.gpr).cands ≠ [] := by
    intro h
    rw [h] at hs
    simp at hs
  rw [iterN, if_pos ⟨hT, hF, rfl⟩]
  have grow : ∀ (n : ℕ) (st : St G X), ∃ l, (iterN o mcOpts nT nF steps n st).1.evals = st.evals ++ l := by
    intro n
    induction n with
    | zero => intro st; exact ⟨[], by simp [iterN]⟩
    | succ n ih =>
      intro st
      have hi : ∃ l, (iterate o mcOpts (steps st.iter st.gpr) st).1.evals = st.evals ++ l := by
        unfold iterate
        dsimp only
        split
        · split <;> exact ⟨[], by simp⟩
        · cases (steps st.iter st.gpr).fit st.gpr with
          | error e => exact ⟨_, rfl⟩
          | ok g =>
            dsimp only
            split
            · split <;> exact ⟨_, rfl⟩
            · exact ⟨_, rfl⟩
      obtain ⟨l, hl⟩ := hi
      rw [iterN]
      split
      · cases hr : iterate o mcOpts (steps st.iter st.gpr) st with
        | mk st' c =>
          rw [hr] at hl
          cases c with
          | next =>
            obtain ⟨l', hl'⟩ := ih st'
            exact ⟨l ++ l', by rw [← List.append_assoc, ← hl]; exact hl'⟩
          | break_ => exact ⟨l, hl⟩
          | raise e => exact ⟨l, hl⟩
      · exact ⟨[], by simp⟩
  have hi : (iterate o mcOpts (steps (St.start (X := X) old.gpr).iter (St.start (X := X) old.gpr).gpr) (.start old.gpr)).1.evals = (steps 0 old.gpr).cands := by
    unfold iterate St.start
    dsimp only
    rw [if_neg (not_lt.2 hs)]
    cases (steps 0 old.gpr).fit old.gpr with
    | error e => simp
    | ok g =>
      dsimp only
      split
      · split <;> simp
      · simp
  cases hr : iterate o mcOpts (steps (St.start (X := X) old.gpr).iter (St.start (X := X) old.gpr).gpr) (.start old.gpr) with
  | mk st' c =>
    rw [hr] at hi
    cases c with
    | next =>
      obtain ⟨l, hl⟩ := grow n st'
      exact ⟨l, by rw [← hi]; exact hl, hne⟩
    | break_ => exact ⟨[], by rw [List.append_nil]; exact hi, hne⟩
    | raise e => exact ⟨[], by rw [List.append_nil]; exact hi, hne⟩

/-! ## Fits of the hyperparameters -/

/-- **C161** (when the fits are the same): if the run is interrupted after a number of iterations that both periods divide, the resumed run fits the
hyperparameters in the same way as the run without interruption. -/
theorem C161_fits_partial (full simple k : ℕ) (hf : full ∣ k) (hs : simple ∣ k) (i : ℕ) : fitKind full simple (k + i) = fitKind full simple i := by
  obtain ⟨a, rfl⟩ := hf
  obtain ⟨b, hb⟩ := hs
  unfold fitKind
  rw [Nat.mul_add_mod]
  conv_lhs => rw [hb, Nat.mul_add_mod]

/-- **C161** (only then): if the iterations of the resumed run have the same fits as those of the run without interruption, then the interruption was after a
multiple of the period of the full fits. -/
theorem C161_fits_only_if (full simple k : ℕ) (hf : 0 < full) (h : ∀ i, 1 ≤ i → fitKind full simple (k + i) = fitKind full simple i) : full ∣ k := by
  have hfull : ∀ i, fitKind full simple i = .full ↔ i % full = full - 1 := by
    have hf' : full ≠ 0 := by omega
    intro i; unfold fitKind; split_ifs <;> simp_all
  have h1 := h (full + (full - 1)) (by omega)
  have h2 : fitKind full simple (full + (full - 1)) = .full := by
    rw [hfull, Nat.add_mod_left, Nat.mod_eq_of_lt (by omega)]
  rw [h2, hfull, show k + (full + (full - 1)) = (k + (full - 1)) + full from by omega, Nat.add_mod_right] at h1
  have h3 : (k + (full - 1) + 1) % full = 0 := by
    rw [Nat.add_mod, h1]
    by_cases h' : full = 1
    · subst h'; simp
    · rw [Nat.mod_eq_of_lt (show 1 < full by omega), show full - 1 + 1 = full from by omega, Nat.mod_self]
  rw [show k + (full - 1) + 1 = k + full from by omega, Nat.add_mod_right] at h3
  exact Nat.dvd_of_mod_eq_zero h3

/-- **C161** (with the default period 1 of the simple fits): the resumed run fits as the run without interruption if and only if the interruption was after a
multiple of the period of the full fits. -/
theorem C161_fits_default_iff (full k : ℕ) (hf : 0 < full) : (∀ i, 1 ≤ i → fitKind full 1 (k + i) = fitKind full 1 i) ↔ full ∣ k :=
  ⟨C161_fits_only_if full 1 k hf, fun h i _ => C161_fits_partial full 1 k h (one_dvd k) i⟩

example : ∃ i, 1 ≤ i ∧ fitKind 3 1 (4 + i) ≠ fitKind 3 1 i := by
  by_contra h
  push Not at h
  exact absurd ((C161_fits_default_iff 3 4 (by decide)).1 h) (by decide)

/-- **C161** is false of the fits: a run that is interrupted and resumed again and again, always after fewer than `full - 1` iterations, never makes a full fit,
however many iterations it makes. Without interruption there is one in every `full` iterations (`C38_schedule_partial`). -/
theorem C161_never_full_counterexample (full simple : ℕ) (sessions : List ℕ) (h : ∀ n ∈ sessions, n + 1 < full) :
    FitKind.full ∉ sessionFits full simple sessions := by
  intro hm
  unfold sessionFits at hm
  rw [List.mem_flatMap] at hm
  obtain ⟨n, hn, hm⟩ := hm
  rw [List.mem_map] at hm
  obtain ⟨i, hi, hk⟩ := hm
  have hi' := List.mem_range.1 hi
  have hn' := h n hn
  unfold fitKind at hk
  rw [Nat.mod_eq_of_lt (show i + 1 < full by omega)] at hk
  rw [if_neg (by omega)] at hk
  split at hk <;> cases hk

/-- Number of multiples of `f` among `2, ..., n + 1`. -/
theorem count_full (f : ℕ) (hf : 2 ≤ f) (simple n : ℕ) : ((List.range n).map fun i => fitKind f simple (i + 1)).count .full = (n + 1) / f := by
  have hfull : ∀ i, fitKind f simple i = .full ↔ i % f = f - 1 := by
    have hf' : f ≠ 0 := by omega
    intro i; unfold fitKind; split_ifs <;> simp_all
  induction n with
  | zero => simp [Nat.div_eq_of_lt (show 1 < f by omega)]
  | succ n ih =>
    rw [List.range_succ, List.map_append, List.count_append, ih]
    simp only [List.map_cons, List.map_nil, List.count_singleton]
    rw [Nat.succ_div (a := n + 1)]
    congr 1
    have : (fitKind f simple (n + 1) == .full) = decide (f ∣ n + 1 + 1) := by
      rw [Bool.eq_iff_iff, beq_iff_eq, decide_eq_true_eq, hfull, Nat.dvd_iff_mod_eq_zero]
      have hlt := Nat.mod_lt (n + 1) (show 0 < f by omega)
      constructor
      · intro h
        rw [Nat.add_mod, h, Nat.mod_eq_of_lt (show 1 < f by omega), show f - 1 + 1 = f from by omega, Nat.mod_self]
      · intro h
        by_contra hne
        have h2 : (n + 1) % f + 1 < f := by omega
        rw [Nat.add_mod, Nat.mod_eq_of_lt (show 1 < f by omega), Nat.mod_eq_of_lt h2] at h
        omega
    rw [this]
    by_cases hd : f ∣ n + 1 + 1 <;> simp [hd]

/-- **C161** (number of full fits): for a period of at least two, sessions of `n_1, n_2, ...` iterations make `(n_1 + 1) / full + (n_2 + 1) / full + ...` full fits
(whole numbers); a single session of as many iterations makes `(n_1 + n_2 + ... + 1) / full`. -/
theorem C161_number_of_fits (full simple : ℕ) (hf : 2 ≤ full) (sessions : List ℕ) :
    (sessionFits full simple sessions).count .full = (sessions.map fun n => (n + 1) / full).sum ∧
    (sessionFits full simple [sessions.sum]).count .full = (sessions.sum + 1) / full := by
  have key : ∀ l : List ℕ, (sessionFits full simple l).count .full = (l.map fun n => (n + 1) / full).sum := by
    intro l
    induction l with
    | nil => rfl
    | cons n l ih =>
      unfold sessionFits at ih ⊢
      rw [List.flatMap_cons, List.count_append, count_full full hf, ih, List.map_cons, List.sum_cons]
  refine ⟨key sessions, ?_⟩
  rw [key]
  simp

/-- With period 3 and one iteration per session no full fit is made; with period 2 every fit is a full one. -/
example : (sessionFits 3 1 [1, 1, 1, 1, 1, 1]).count .full = 0 ∧ (sessionFits 3 1 [6]).count .full = 2 ∧
    (sessionFits 2 1 [1, 1, 1, 1, 1, 1]).count .full = 6 ∧ (sessionFits 2 1 [6]).count .full = 3 := by decide

example : FitKind.full ∉ sessionFits 4 1 [2, 2, 1, 2] := C161_never_full_counterexample 4 1 _ (by decide)

example : fitKind 4 2 (8 + 3) = .full := by rw [C161_fits_partial 4 2 8 (by decide) (by decide)]; decide

/-- A run interrupted after an iteration with one evaluation; three evaluations are left. -/
example : let old : St ℕ ℕ := ⟨3, false, 0, 1, [.evaluated 1 1 false false], [0]⟩
    old.resamples = 0 ∧ (iterN ⟨2, 3, 6, 6, 1, 2, 1, 2⟩ true id id (fun _ _ => exStep 1 false false) 10 old).2 = some .finished ∧
    (iterN ⟨2, 3, 6, 6, 1, 2, 1, 2⟩ true id id (fun _ _ => exStep 1 false false) 10 old).1.trace.length = 4 := by decide +kernel

/-- A run that converged with two evaluations left, and is resumed. -/
example : ∃ l, (iterN ⟨2, 3, 6, 6, 1, 2, 1, 2⟩ true id id (fun _ _ => exStep 1 false false) 5 (.start 4)).1.evals = (exStep 1 false false).cands ++ l :=
  ((C161_converged_counterexample (o := ⟨2, 3, 6, 6, 1, 2, 1, 2⟩) (mcOpts := true) (nT := id) (nF := id) (steps := fun _ _ => exStep 1 false false)
    ⟨4, true, 0, 1, [], []⟩ rfl (by decide) (by decide) (by decide) 4).2).imp fun _ h => h.1

/-- After an iteration that evaluated a point there are no failed acquisitions, though there was one before. -/
example : (iterate ⟨2, 3, 6, 6, 1, 2, 1, 2⟩ true (exStep 1 false false) ⟨3, false, 1, 1, [.insufficient], []⟩).1.resamples = 0 :=
  C161_saved (o := ⟨2, 3, 6, 6, 1, 2, 1, 2⟩) (mcOpts := true) (exStep 1 false false) ⟨3, false, 1, 1, [.insufficient], []⟩ _ rfl (by decide)

end GPry.Run
