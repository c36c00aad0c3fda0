import Verif.ConvMc
import Verif.ConvProps
import Verif.SpmdProps
import Mathlib.Analysis.SpecialFunctions.Exp
import Mathlib.Tactic.NormNum
import Mathlib.Tactic.Ring
import Mathlib.Tactic.FieldSimp

set_option linter.all false

namespace GPry.ConvMc

open Cov

section
variable {K : Type*} [Field K] [LinearOrder K] {d : ℕ}

theorem after_nil (P : Par d K) (s : State d K) : after P s [] = s := rfl

theorem after_cons (P : Par d K) (s : State d K) (c : Call d K) (h : List (Call d K)) :
    after P s (c :: h) = after P (step P s c).1 h := rfl

theorem after_concat (P : Par d K) : ∀ (h : List (Call d K)) (s : State d K) (c : Call d K),
    after P s (h ++ [c]) = (step P (after P s h) c).1
  | [], _, _ => rfl
  | c0 :: h, s, c => by rw [List.cons_append, after_cons, after_concat P h, after_cons]

theorem reuses_concat (P : Par d K) : ∀ (h : List (Call d K)) (s : State d K) (c : Call d K),
    reuses P s (h ++ [c]) = reuses P s h + if reusing P (after P s h) c then 1 else 0
  | [], s, c => by rw [after_nil, List.nil_append, reuses, reuses, reuses, Nat.add_comm]
  | c0 :: h, s, c => by
    rw [List.cons_append, reuses, reuses_concat P h, reuses, after_cons, Nat.add_assoc]

/-! ## What a call does to the state -/

theorem sampleMc_state (P : Par d K) (s : State d K) (c : Call d K) (cov : Option (CovMat d K)) :
    (sampleMc P s c cov).1.kl = s.kl ∧ (sampleMc P s c cov).1.thres = s.thres ∧ (sampleMc P s c cov).1.evals = s.evals ∧
    (sampleMc P s c cov).1.nReused = s.nReused ∧
    (((sampleMc P s c cov).1.coll = s.coll ∧ (sampleMc P s c cov).2 = .error .check) ∨
      ∃ k, (sampleMc P s c cov).1.coll = some k ∧ (sampleMc P s c cov).2 = .ok (false, k.stat)) := by
  unfold sampleMc
  cases hm : c.mcmc (proposal P s cov) with
  | none => simp
  | some k => simp

theorem getNew_kl (P : Par d K) (s : State d K) (c : Call d K) :
    (getNew P s c).1.kl = s.kl ∧ (getNew P s c).1.evals = s.evals ∧
    (getNew P s c).1.thres = s.thres ++ (if c.acq.isSome then [] else [P.limit]) := by
  unfold getNew
  split
  · rename_i h
    simp only [h, Option.isSome_none, Bool.false_eq_true, if_false]
    unfold fromMc
    dsimp only
    split
    · have h := sampleMc_state P { s with thres := s.thres ++ [P.limit] } c none
      exact ⟨h.1, h.2.2.1, h.2.1⟩
    · rename_i coll _
      split
      · exact ⟨rfl, rfl, rfl⟩
      · exact ⟨rfl, rfl, rfl⟩
      · rename_i m _
        have h := sampleMc_state P { s with thres := s.thres ++ [P.limit] } c (some m.cov)
        exact ⟨h.1, h.2.2.1, h.2.1⟩
  · rename_i X w h
    simp [h]

theorem fromMc_cases (P : Par d K) (s : State d K) (c : Call d K) :
    (s.coll = none ∧ fromMc P s c = sampleMc P { s with thres := s.thres ++ [P.limit] } c none) ∨
    (∃ coll e, s.coll = some coll ∧ tryReuse P { s with thres := s.thres ++ [P.limit] } c coll = .error e ∧
      fromMc P s c = ({ s with thres := s.thres ++ [P.limit] }, .error e)) ∨
    (∃ coll m, s.coll = some coll ∧ tryReuse P { s with thres := s.thres ++ [P.limit] } c coll = .ok (true, m) ∧
      fromMc P s c = ({ s with thres := s.thres ++ [P.limit], nReused := s.nReused + 1 }, .ok (true, m))) ∨
    (∃ coll m, s.coll = some coll ∧ tryReuse P { s with thres := s.thres ++ [P.limit] } c coll = .ok (false, m) ∧
      fromMc P s c = sampleMc P { s with thres := s.thres ++ [P.limit] } c (some m.cov)) := by
  unfold fromMc
  dsimp only
  split
  · rename_i h
    exact Or.inl ⟨h, rfl⟩
  · rename_i coll h
    split
    · rename_i e he
      exact Or.inr (Or.inl ⟨coll, e, h, he, rfl⟩)
    · rename_i m he
      exact Or.inr (Or.inr (Or.inl ⟨coll, m, h, he, rfl⟩))
    · rename_i m he
      exact Or.inr (Or.inr (Or.inr ⟨coll, m, h, he, rfl⟩))

theorem flag_acq (x : Except Cov.Err (MeanCov d K)) : flag (acqOutcome x) = false := by
  cases x with
  | ok m => rfl
  | error e => cases e <;> rfl

theorem getNew_reused (P : Par d K) (s : State d K) (c : Call d K) :
    (getNew P s c).1.nReused = s.nReused + (if reusing P s c then 1 else 0) := by
  unfold reusing
  cases ha : c.acq with
  | none =>
    have e : getNew P s c = fromMc P s c := by unfold getNew; rw [ha]
    rw [e]
    rcases fromMc_cases P s c with ⟨_, h⟩ | ⟨coll, e, _, _, h⟩ | ⟨coll, m, _, _, h⟩ | ⟨coll, m, _, _, h⟩
    · have hs := sampleMc_state P { s with thres := s.thres ++ [P.limit] } c none
      rw [h]
      rcases hs.2.2.2.2 with ⟨_, h2⟩ | ⟨k, _, h2⟩ <;> rw [hs.2.2.2.1, h2] <;> simp [flag]
    · rw [h]; simp [flag]
    · rw [h]; simp [flag]
    · have hs := sampleMc_state P { s with thres := s.thres ++ [P.limit] } c (some m.cov)
      rw [h]
      rcases hs.2.2.2.2 with ⟨_, h2⟩ | ⟨k, _, h2⟩ <;> rw [hs.2.2.2.1, h2] <;> simp [flag]
  | some q =>
    obtain ⟨X, w⟩ := q
    unfold getNew
    rw [ha]
    dsimp only
    rw [flag_acq]
    simp

theorem gaussian_values {M : Type*} (kl : M → M → Option (Ext K)) (s : Conv.KL M K) (m : Option M) :
    ∃ v, (Conv.KL.gaussian kl s m).1.values = s.values ++ [v] ∧ (m = none → v = .nan) ∧ (s.last = none → v = .nan) := by
  unfold Conv.KL.gaussian
  cases m with
  | none => exact ⟨.nan, rfl, fun _ => rfl, fun _ => rfl⟩
  | some m =>
    cases hl : s.last with
    | none => exact ⟨.nan, rfl, fun _ => rfl, fun _ => rfl⟩
    | some o =>
      dsimp only
      split
      · exact ⟨.nan, rfl, fun _ => rfl, fun _ => rfl⟩
      · rename_i v _
        split
        · exact ⟨.nan, rfl, fun _ => rfl, fun _ => rfl⟩
        · exact ⟨v, rfl, by simp, by simp⟩

theorem gaussian_last {M : Type*} (kl : M → M → Option (Ext K)) (s : Conv.KL M K) (m : Option M) :
    (Conv.KL.gaussian kl s m).1.last = m.orElse fun _ => s.last := by
  unfold Conv.KL.gaussian
  cases m with
  | none => rfl
  | some m =>
    cases hl : s.last with
    | none => rfl
    | some o =>
      dsimp only
      split
      · rfl
      · split <;> rfl

theorem converged_fst {M : Type*} (limit : K) (n : ℕ) (r : Conv.KL M K × Except Conv.Err (Ext K)) :
    (Conv.KL.converged limit n r).1 = r.1 := by
  rcases r with ⟨s, _ | _⟩ <;> rfl

/-- The cases of a call. -/
theorem step_cases (P : Par d K) (s : State d K) (c : Call d K) :
    (∃ e, (getNew P s c).2 = .error (.other e) ∧ step P s c = ((getNew P s c).1, .error (.other e))) ∨
    ((getNew P s c).2 = .error .check ∧ step P s c = finish P (getNew P s c).1 c none) ∨
    ∃ b m, (getNew P s c).2 = .ok (b, m) ∧ step P s c = finish P (getNew P s c).1 c (some m) := by
  unfold step
  split
  · rename_i s' e h
    rw [h]; exact Or.inl ⟨e, rfl, rfl⟩
  · rename_i s' h
    rw [h]; exact Or.inr (Or.inl ⟨rfl, rfl⟩)
  · rename_i s' b m h
    rw [h]; exact Or.inr (Or.inr ⟨b, m, rfl, rfl⟩)

theorem step_reused (P : Par d K) (s : State d K) (c : Call d K) :
    (step P s c).1.nReused = s.nReused + (if reusing P s c then 1 else 0) := by
  rcases step_cases P s c with ⟨e, _, h⟩ | ⟨_, h⟩ | ⟨b, m, _, h⟩ <;> rw [h] <;> exact getNew_reused P s c

/-- What holds after any calls: nothing yet, or the first value is NaN; with a sample there is a mean. -/
def Inv (s : State d K) : Prop :=
  (s.kl.values = [] ∧ s.coll = none ∧ s.kl.last = none) ∨ (s.kl.values.head? = some .nan ∧ (s.coll.isSome → s.kl.last.isSome))

theorem getNew_coll (P : Par d K) (s : State d K) (c : Call d K) :
    (getNew P s c).1.coll = s.coll ∨ ∃ b m, (getNew P s c).2 = .ok (b, m) := by
  unfold getNew
  split
  · unfold fromMc
    dsimp only
    split
    · have h := sampleMc_state P { s with thres := s.thres ++ [P.limit] } c none
      rcases h.2.2.2.2 with ⟨h1, _⟩ | ⟨k, _, h2⟩
      · exact Or.inl h1
      · exact Or.inr ⟨_, _, h2⟩
    · rename_i coll hc
      split
      · exact Or.inl rfl
      · exact Or.inl rfl
      · rename_i m _
        have h := sampleMc_state P { s with thres := s.thres ++ [P.limit] } c (some m.cov)
        rcases h.2.2.2.2 with ⟨h1, _⟩ | ⟨k, _, h2⟩
        · exact Or.inl h1
        · exact Or.inr ⟨_, _, h2⟩
  · exact Or.inl rfl

theorem inv_step (P : Par d K) (s : State d K) (c : Call d K) (h : Inv s) : Inv (step P s c).1 := by
  obtain ⟨hk, -, -⟩ := getNew_kl P s c
  rcases step_cases P s c with ⟨e, he, hs⟩ | ⟨he, hs⟩ | ⟨b, m, he, hs⟩
  · rw [hs]
    have hcoll : (getNew P s c).1.coll = s.coll := by
      rcases getNew_coll P s c with h1 | ⟨b, m, h1⟩
      · exact h1
      · rw [he] at h1; cases h1
    unfold Inv at h ⊢
    dsimp only
    rwa [hk, hcoll]
  · rw [hs]
    have hcoll : (getNew P s c).1.coll = s.coll := by
      rcases getNew_coll P s c with h1 | ⟨b, m, h1⟩
      · exact h1
      · rw [he] at h1; cases h1
    obtain ⟨v, hv, hv1, -⟩ := gaussian_values (klOpt P) (getNew P s c).1.kl none
    have hl := gaussian_last (klOpt P) (getNew P s c).1.kl none
    refine Or.inr ?_
    unfold finish
    dsimp only
    rw [converged_fst, hv, hl, hk, hcoll, hv1 rfl]
    rcases h with ⟨h1, h2, h3⟩ | ⟨h1, h2⟩
    · rw [h1, h2]; simp
    · refine ⟨?_, by simpa using h2⟩
      cases hvs : s.kl.values with
      | nil => simp
      | cons a l => rw [hvs] at h1; simpa using h1
  · rw [hs]
    obtain ⟨v, hv, -, hv2⟩ := gaussian_values (klOpt P) (getNew P s c).1.kl (some m)
    have hl := gaussian_last (klOpt P) (getNew P s c).1.kl (some m)
    refine Or.inr ?_
    unfold finish
    dsimp only
    rw [converged_fst, hv, hl, hk]
    refine ⟨?_, by simp⟩
    rcases h with ⟨h1, h2, h3⟩ | ⟨h1, h2⟩
    · rw [hk] at hv2; rw [h1, hv2 h3]; rfl
    · cases hvs : s.kl.values with
      | nil => rw [hvs] at h1; simp at h1
      | cons a l => rw [hvs] at h1; simpa using h1

theorem inv_after (P : Par d K) : ∀ (h : List (Call d K)) (s : State d K), Inv s → Inv (after P s h)
  | [], _, hs => hs
  | c :: h, s, hs => by rw [after_cons]; exact inv_after P h _ (inv_step P s c hs)

theorem inv_init : Inv (State.init : State d K) := Or.inl ⟨rfl, rfl, rfl⟩

/-! ## The lower limit of the divergence is always zero -/

theorem pyMax_nan (l : List (Ext K)) : Ext.pyMax (.nan :: l) = some .nan := by
  show some (l.foldl Ext.pyMax2 .nan) = some .nan
  congr 1
  induction l with
  | nil => rfl
  | cons a l ih =>
    rw [List.foldl_cons]
    have : Ext.pyMax2 .nan a = .nan := by
      unfold Ext.pyMax2 Ext.gt Ext.lt
      cases a <;> rfl
    rw [this, ih]

theorem minKl_zero (limit : K) (l : List (Ext K)) (h : l.head? = some .nan) : minKl limit l = .ok 0 := by
  cases l with
  | nil => simp at h
  | cons a l =>
    simp only [List.head?_cons, Option.some.injEq] at h
    subst h
    unfold minKl
    rw [pyMax_nan]
    rfl

theorem nReused_after (P : Par d K) : ∀ (h : List (Call d K)) (s : State d K),
    (after P s h).nReused = s.nReused + reuses P s h
  | [], _ => rfl
  | c :: h, s => by rw [after_cons, nReused_after P h, step_reused, reuses, Nat.add_assoc]

theorem reusing_iff (P : Par d K) (s : State d K) (c : Call d K) : reusing P s c = true ↔
    c.acq = none ∧ ∃ coll m, s.coll = some coll ∧ tryReuse P { s with thres := s.thres ++ [P.limit] } c coll = .ok (true, m) := by
  unfold reusing
  cases ha : c.acq with
  | some q =>
    obtain ⟨X, w⟩ := q
    simp only [reduceCtorEq, false_and, iff_false]
    unfold getNew
    rw [ha]
    dsimp only
    rw [flag_acq]
    simp
  | none =>
    have e : getNew P s c = fromMc P s c := by unfold getNew; rw [ha]
    rw [e]
    simp only [true_and]
    rcases fromMc_cases P s c with ⟨h0, h⟩ | ⟨coll, e, h0, h1, h⟩ | ⟨coll, m, h0, h1, h⟩ | ⟨coll, m, h0, h1, h⟩
    · have hs := sampleMc_state P { s with thres := s.thres ++ [P.limit] } c none
      rw [h]
      rcases hs.2.2.2.2 with ⟨_, h2⟩ | ⟨k, _, h2⟩ <;> rw [h2] <;> simp [h0, flag]
    · rw [h]
      simp only [flag, Bool.false_eq_true, false_iff]
      rintro ⟨coll', m', h2, h3⟩
      rw [h0] at h2; cases h2
      rw [h1] at h3; cases h3
    · rw [h]
      simp only [flag, true_iff]
      exact ⟨coll, m, h0, h1⟩
    · have hs := sampleMc_state P { s with thres := s.thres ++ [P.limit] } c (some m.cov)
      rw [h]
      have hne : ¬ ∃ coll m, s.coll = some coll ∧ tryReuse P { s with thres := s.thres ++ [P.limit] } c coll = .ok (true, m) := by
        rintro ⟨coll', m', h2, h3⟩
        rw [h0] at h2; cases h2
        rw [h1] at h3; cases h3
      rcases hs.2.2.2.2 with ⟨_, h2⟩ | ⟨k, _, h2⟩ <;> rw [h2] <;> simpa [flag] using hne

/-- C107: when the last sample is used again. After any calls, a call uses the last sample again if and only if the acquisition
has no sample, there is a sample, and the larger of the two divergences between the reweighted sample and the last mean and
covariance is positive and smaller than the last value, which must be a number; and if less than `max_reused` calls in total
did the same. The lower limit `limit * 1e-2` of the code never applies: the first of the values is always NaN, and so is the
result of `max`. -/
theorem C107_reuse (P : Par d K) (h : List (Call d K)) (c : Call d K) :
    reusing P (after P State.init h) c = true ↔
      c.acq = none ∧ ∃ coll m k v, (after P State.init h).coll = some coll ∧ reweighted P.ex c.predict coll = .ok m ∧
        reuseKl P m (after P State.init h).kl.last = .ok k ∧ (after P State.init h).kl.values.getLast? = some v ∧
        Ext.lt (.fin 0) k = true ∧ Ext.lt k v = true ∧ reuses P State.init h < P.maxReused := by
  have hinv := inv_after P h _ (inv_init (d := d) (K := K))
  have hn := nReused_after P h (State.init : State d K)
  rw [show (State.init : State d K).nReused = 0 from rfl, Nat.zero_add] at hn
  rw [reusing_iff]
  refine and_congr_right fun _ => ?_
  constructor
  · rintro ⟨coll, m, hc, ht⟩
    have hv : (after P State.init h).kl.values.head? = some .nan := by
      rcases hinv with ⟨_, h2, _⟩ | h1
      · rw [h2] at hc; cases hc
      · exact h1.1
    unfold tryReuse at ht
    cases hr : reweighted P.ex c.predict coll with
    | error e => rw [hr] at ht; cases ht
    | ok m' =>
      rw [hr] at ht
      dsimp only at ht
      cases hk : reuseKl P m' (after P State.init h).kl.last with
      | error e => rw [hk] at ht; cases e <;> cases ht
      | ok k =>
        rw [hk] at ht
        dsimp only at ht
        rw [minKl_zero _ _ hv] at ht
        dsimp only at ht
        simp only [Except.ok.injEq, Prod.mk.injEq] at ht
        obtain ⟨hb, rfl⟩ := ht
        unfold isReused at hb
        rw [Bool.and_eq_true, Bool.and_eq_true, decide_eq_true_iff, hn] at hb
        obtain ⟨⟨h1, h2⟩, h3⟩ := hb
        rw [List.getLastD_eq_getLast?] at h2
        cases hl : (after P State.init h).kl.values.getLast? with
        | none => rw [hl] at h2; unfold Ext.lt at h2; cases k <;> simp at h2
        | some v =>
          rw [hl] at h2
          exact ⟨coll, m', k, v, hc, hr, hk, rfl, h1, h2, h3⟩
  · rintro ⟨coll, m, k, v, hc, hr, hk, hl, h1, h2, h3⟩
    have hv : (after P State.init h).kl.values.head? = some .nan := by
      rcases hinv with ⟨_, h2, _⟩ | h1
      · rw [h2] at hc; cases hc
      · exact h1.1
    refine ⟨coll, m, hc, ?_⟩
    unfold tryReuse
    rw [hr]
    dsimp only
    rw [hk]
    dsimp only
    rw [minKl_zero _ _ hv]
    dsimp only
    unfold isReused
    rw [List.getLastD_eq_getLast?, hl, hn, h1, Option.getD_some, h2]
    simp [h3]

/-- C107: all along the run, samples are used again at most `max_reused` times (not: each sample, as documented). -/
theorem C107_reuse_bound (P : Par d K) (h : List (Call d K)) : reuses P State.init h ≤ P.maxReused := by
  induction h using List.reverseRecOn with
  | nil => exact Nat.zero_le _
  | append_singleton h c ih =>
    rw [reuses_concat]
    split
    · rename_i hr
      obtain ⟨_, _, _, _, _, _, _, _, _, _, _, hlt⟩ := (C107_reuse P h c).1 hr
      omega
    · omega

/-! ## What is recorded -/

/-- C107: every call that does not raise an exception other than `ConvergenceCheckError` adds one value and the numbers of
evaluations of the surrogate; the others add nothing; a threshold is added by the calls without a sample of the acquisition
only. -/
theorem C107_recorded (P : Par d K) (s : State d K) (c : Call d K) :
    (step P s c).1.thres = s.thres ++ (if c.acq.isSome then [] else [P.limit]) ∧
    ((∃ e, (step P s c).2 = .error (.other e)) → (step P s c).1.kl = s.kl ∧ (step P s c).1.evals = s.evals) ∧
    ((¬ ∃ e, (step P s c).2 = .error (.other e)) →
      (step P s c).1.evals = s.evals ++ [(c.nTotal, c.n)] ∧ ∃ v, (step P s c).1.kl.values = s.kl.values ++ [v] ∧
        (∀ b, (step P s c).2 = .ok b → Ext.lt v (.fin 0) = false) ∧ ((step P s c).2 = .error .check → v = .nan)) := by
  obtain ⟨hk, he, ht⟩ := getNew_kl P s c
  have hfin : ∀ m : Option (MeanCov d K), (finish P (getNew P s c).1 c m).1.thres = s.thres ++ (if c.acq.isSome then [] else [P.limit]) ∧
    (finish P (getNew P s c).1 c m).1.evals = s.evals ++ [(c.nTotal, c.n)] ∧
    (∀ e, (finish P (getNew P s c).1 c m).2 ≠ .error (.other e)) ∧
    ∃ v, (finish P (getNew P s c).1 c m).1.kl.values = s.kl.values ++ [v] ∧
      (∀ b, (finish P (getNew P s c).1 c m).2 = .ok b → Ext.lt v (.fin 0) = false) ∧
      ((finish P (getNew P s c).1 c m).2 = .error .check → v = .nan) := by
    intro m
    refine ⟨ht, by unfold finish; dsimp only; rw [he], ?_, ?_⟩
    · intro e
      unfold finish outcome
      dsimp only
      split <;> simp
    · unfold finish
      dsimp only
      rw [converged_fst, hk]
      unfold Conv.KL.gaussian
      cases m with
      | none => exact ⟨.nan, rfl, (by intro b hb; cases hb), fun _ => rfl⟩
      | some m =>
        cases hl : s.kl.last with
        | none => exact ⟨.nan, rfl, (by intro b hb; cases hb), fun _ => rfl⟩
        | some o =>
          dsimp only
          cases hv : klOpt P m o with
          | none => exact ⟨.nan, rfl, (by intro b hb; cases hb), fun _ => rfl⟩
          | some v =>
            dsimp only
            by_cases hv0 : Ext.lt v (.fin 0) = true
            · rw [if_pos hv0]
              exact ⟨.nan, rfl, (by intro b hb; cases hb), fun _ => rfl⟩
            · rw [if_neg hv0]
              refine ⟨v, rfl, fun _ _ => by simpa using hv0, ?_⟩
              intro hb; cases hb
  rcases step_cases P s c with ⟨e, h1, h2⟩ | ⟨h1, h2⟩ | ⟨b, m, h1, h2⟩
  · rw [h2]
    exact ⟨ht, fun _ => ⟨hk, he⟩, fun hn => absurd ⟨e, rfl⟩ hn⟩
  · rw [h2]
    obtain ⟨a1, a2, a3, a4⟩ := hfin none
    exact ⟨a1, fun ⟨e, h⟩ => absurd h (a3 e), fun _ => ⟨a2, a4⟩⟩
  · rw [h2]
    obtain ⟨a1, a2, a3, a4⟩ := hfin (some m)
    exact ⟨a1, fun ⟨e, h⟩ => absurd h (a3 e), fun _ => ⟨a2, a4⟩⟩

end

/-! ## One parameter -/

section
variable {K : Type*} [Field K] [LinearOrder K]

theorem reweighted_ndim (ex : K → K) (predict : (Fin 1 → K) → Ext K) (coll : Coll 1 K) (m : MeanCov 1 K)
    (h : reweighted ex predict coll = .ok m) : m.cov.ndim = 0 := by
  unfold reweighted at h
  split at h
  · cases h
  · unfold fromSamples at h
    split at h
    · cases h
    · split at h
      · cases h
      · rename_i c hc
        cases h
        unfold npCov at hc
        dsimp only at hc
        split at hc
        · cases hc
        · split at hc
          · cases hc
          · split at hc
            · cases hc
            · cases hc; rfl

theorem klNorm_flat (kl : (Fin 1 → Ext K) → (Fin 1 → Fin 1 → Ext K) → (Fin 1 → Ext K) → (Fin 1 → Fin 1 → Ext K) → Except Cov.Err (Ext K))
    (m0 m1 : Fin 1 → Ext K) (c0 c1 : CovMat 1 K) (h : c0.ndim = 0) : klNorm kl m0 c0 m1 c1 = .error .linAlg := by
  unfold klNorm square
  rw [h]
  by_cases h1 : c1.ndim < 2 <;> simp [h1]

/-- With one parameter the comparison of a reweighted sample always fails. -/
theorem tryReuse_one (P : Par 1 K) (s : State 1 K) (c : Call 1 K) (coll : Coll 1 K) :
    ∃ e, tryReuse P s c coll = .error e ∧ (∀ m, reweighted P.ex c.predict coll = .ok m → e = .check) := by
  unfold tryReuse
  cases hr : reweighted P.ex c.predict coll with
  | error e => exact ⟨_, rfl, by simp⟩
  | ok m =>
    refine ⟨.check, ?_, fun _ _ => rfl⟩
    have h0 := reweighted_ndim _ _ _ _ hr
    dsimp only
    cases hl : s.kl.last with
    | none => rfl
    | some o =>
      unfold reuseKl
      dsimp only
      rw [klNorm_flat _ _ _ _ _ h0]

/-- C107 with one parameter: if the acquisition has no samples, no call ever computes a value of the criterion: the first
with a sample has nothing to compare to, and in all the following the covariance of the reweighted sample is an array without
dimensions, for which the divergence raises `LinAlgError`. So the criterion never tells of convergence. -/
theorem C107_one_parameter (P : Par 1 K) (h : List (Call 1 K)) (c : Call 1 K) (hc : ∀ c' ∈ h, c'.acq = none) (hc' : c.acq = none) :
    ∀ b, (step P (after P State.init h) c).2 ≠ .ok b := by
  have key : ∀ (h : List (Call 1 K)) (s : State 1 K), (∀ c' ∈ h, c'.acq = none) → (s.coll = none → s.kl.last = none) →
      ((after P s h).coll = none → (after P s h).kl.last = none) := by
    intro h
    induction h with
    | nil => intro s _ hs; exact hs
    | cons c0 h ih =>
      intro s hh hs
      rw [after_cons]
      refine ih _ (fun c' hc' => hh c' (List.mem_cons_of_mem _ hc')) ?_
      have ha : c0.acq = none := hh c0 List.mem_cons_self
      obtain ⟨hk, -, -⟩ := getNew_kl P s c0
      have hcoll : (getNew P s c0).1.coll = s.coll ∨ (getNew P s c0).1.coll ≠ none := by
        unfold getNew
        rw [ha]
        dsimp only
        unfold fromMc
        dsimp only
        cases hc : s.coll with
        | none =>
          have h := sampleMc_state P { s with thres := s.thres ++ [P.limit] } c0 none
          dsimp only
          rw [hc] at h
          rcases h.2.2.2.2 with ⟨h1, _⟩ | ⟨k, h1, _⟩
          · exact Or.inl h1
          · exact Or.inr (by rw [h1]; simp)
        | some coll =>
          dsimp only
          split
          · exact Or.inl rfl
          · exact Or.inl rfl
          · rename_i m _
            have h := sampleMc_state P { s with thres := s.thres ++ [P.limit] } c0 (some m.cov)
            rw [hc] at h
            rcases h.2.2.2.2 with ⟨h1, _⟩ | ⟨k, h1, _⟩
            · exact Or.inl h1
            · exact Or.inr (by rw [h1]; simp)
      rcases step_cases P s c0 with ⟨e, h1, h2⟩ | ⟨h1, h2⟩ | ⟨b, m, h1, h2⟩
      · rw [h2]; dsimp only; intro hn
        rw [hk]
        rcases hcoll with h | h
        · exact hs (h ▸ hn)
        · exact absurd hn h
      · rw [h2]
        unfold finish
        dsimp only
        intro hn
        rw [converged_fst, gaussian_last, hk]
        rcases hcoll with h | h
        · simpa using hs (h ▸ hn)
        · exact absurd hn h
      · rw [h2]
        unfold finish
        dsimp only
        intro hn
        exfalso
        rcases hcoll with h | h
        · have hsn : s.coll = none := h ▸ hn
          unfold getNew at h1 hn
          rw [ha] at h1 hn
          dsimp only at h1 hn
          unfold fromMc at h1 hn
          dsimp only at h1 hn
          rw [hsn] at h1 hn
          dsimp only at h1 hn
          have h := sampleMc_state P { kl := s.kl, thres := s.thres ++ [P.limit], evals := s.evals, nReused := s.nReused, coll := none } c0 none
          rcases h.2.2.2.2 with ⟨_, h4⟩ | ⟨k, h4, _⟩
          · rw [h4] at h1; cases h1
          · rw [h4] at hn; cases hn
        · exact h hn
  have hs := key h State.init hc (fun _ => rfl)
  intro b hb
  set s := after P State.init h with hsdef
  obtain ⟨hk, -, -⟩ := getNew_kl P s c
  rcases step_cases P s c with ⟨e, h1, h2⟩ | ⟨h1, h2⟩ | ⟨b', m, h1, h2⟩
  · rw [h2] at hb; cases hb
  · rw [h2] at hb
    unfold finish Conv.KL.gaussian at hb
    cases hb
  · rw [h2] at hb
    cases hcoll : s.coll with
    | none =>
      unfold finish Conv.KL.gaussian at hb
      dsimp only at hb
      rw [hk, hs hcoll] at hb
      cases hb
    | some coll =>
      unfold getNew at h1
      rw [hc'] at h1
      dsimp only at h1
      unfold fromMc at h1
      dsimp only at h1
      rw [hcoll] at h1
      dsimp only at h1
      obtain ⟨e, he, _⟩ := tryReuse_one P { kl := s.kl, thres := s.thres ++ [P.limit], evals := s.evals, nReused := s.nReused, coll := some coll } c coll
      rw [he] at h1
      cases h1

end

/-! ## Several processes -/

/-- What the main process finds when it tries to use the last sample again, for `Spmd.meanCovFromMC`. -/
def mpiReuse {d : ℕ} {K : Type} : Except Exc (Bool × MeanCov d K) → Except Spmd.Exc (Option (MeanCov d K))
  | .ok (true, m) => .ok (some m)
  | .ok (false, _) => .ok none
  | .error .check => .error (.conv "Could not compute KL norm")
  | .error (.other _) => .error (.other "")

/-- C107 with one parameter and several processes: the check that follows the first sample of the criterion never ends. The
main process has left with an exception and is in a collective call while the others are in another one. -/
theorem C107_one_parameter_deadlock {K : Type} [Field K] [LinearOrder K] {p : ℕ} (hp : 1 < p) (P : Par 1 K) (s : State 1 K) (c : Call 1 K)
    (coll : Coll 1 K) (m : MeanCov 1 K) (hr : reweighted P.ex c.predict coll = .ok m) (success : Fin p → Bool) (new : MeanCov 1 K)
    (rest : MeanCov 1 K → Spmd.Prog Spmd.Exc Bool) :
    Spmd.Deadlocks (fun r : Fin p => Spmd.isConvergedMPI true r
      (Spmd.meanCovFromMC r (mpiReuse (tryReuse P s c coll)) (success r) new >>= rest)) := by
  obtain ⟨e, he, hm⟩ := tryReuse_one P s c coll
  rw [he, hm m hr]
  exact Spmd.C37_mc_comparison_deadlocks hp _ success new rest

/-! ## Reweighting -/

section
variable {K : Type*} [Field K] [LinearOrder K] {d : ℕ}

theorem foldl_negInf : ∀ (l : List (Ext K)), (∀ x ∈ l, x = .negInf) → l.foldl Ext.pyMax2 .negInf = .negInf
  | [], _ => rfl
  | a :: l, h => by
    rw [List.foldl_cons, h a List.mem_cons_self]
    have : Ext.pyMax2 (.negInf : Ext K) .negInf = .negInf := by unfold Ext.pyMax2; split <;> rfl
    rw [this]
    exact foldl_negInf l fun y hy => h y (List.mem_cons_of_mem _ hy)

theorem zip_fst_snd {A B : Type*} : ∀ p : List (A × B), (p.map Prod.fst).zip (p.map Prod.snd) = p
  | [] => rfl
  | a :: p => by simp [zip_fst_snd p]

theorem pyMax_negInf : ∀ (l : List (Ext K)), (∀ x ∈ l, x = .negInf) → l ≠ [] → Ext.pyMax l = some .negInf
  | [], _, h => absurd rfl h
  | x :: l, h, _ => by
    rw [h x List.mem_cons_self]
    show some (l.foldl Ext.pyMax2 .negInf) = some .negInf
    rw [foldl_negInf l fun y hy => h y (List.mem_cons_of_mem _ hy)]

/-- C107: if the surrogate is minus infinity (its classifier rejects) in all the points of the last sample, the criterion raises
`ZeroDivisionError`, which the runner does not catch. -/
theorem C107_all_rejected (P : Par d K) (s : State d K) (c : Call d K) (coll : Coll d K) (ha : c.acq = none) (hc : s.coll = some coll)
    (hne : coll.rows ≠ []) (hp : ∀ q ∈ coll.rows, c.predict q.1 = .negInf) : (step P s c).2 = .error (.other .zeroDiv) := by
  have h1 : Ext.pyMax (logratios c.predict coll) = some .negInf := by
    refine pyMax_negInf _ ?_ (by simp [logratios, hne])
    intro x hx
    unfold logratios at hx
    rw [List.mem_map] at hx
    obtain ⟨q, hq, rfl⟩ := hx
    rw [hp q hq]; rfl
  have h2 : reweights P.ex c.predict coll = .ok [] := by
    unfold reweights
    rw [h1]
    dsimp only
    congr 1
    rw [List.filterMap_eq_nil_iff]
    rintro ⟨l, q⟩ hq
    have hq' := (List.of_mem_zip hq).1
    unfold logratios at hq'
    rw [List.mem_map] at hq'
    obtain ⟨q', hq2, rfl⟩ := hq'
    rw [hp q' hq2]
    rfl
  have h3 : reweighted P.ex c.predict coll = .error .zeroDiv := by
    unfold reweighted
    rw [h2]
    simp [fromSamples, average]
  have h4 : getNew P s c = ({ s with thres := s.thres ++ [P.limit] }, .error (.other .zeroDiv)) := by
    unfold getNew
    rw [ha]
    dsimp only
    unfold fromMc
    dsimp only
    rw [hc]
    dsimp only
    unfold tryReuse
    rw [h3]
  unfold step
  rw [h4]

end

/-- The weights used for the means are `w * exp(new - old)`, up to a common factor, for the points that are kept. -/
theorem reweights_eq {d : ℕ} (predict : (Fin d → ℝ) → Ext ℝ) (coll : Coll d ℝ) (p : List (ℝ × (Fin d → ℝ)))
    (y : (Fin d → ℝ) → ℝ) (hy : ∀ q ∈ coll.rows, predict q.1 = .fin (y q.1)) (h : reweights Real.exp predict coll = .ok p) :
    ∃ M : ℝ, (∃ q ∈ coll.rows, M = y q.1 - q.2.1) ∧ (∀ q ∈ coll.rows, y q.1 - q.2.1 ≤ M) ∧ p = (coll.rows.filter fun q => decide (1 / 10 ^ 8 < q.2.2 * Real.exp (y q.1 - q.2.1 - M))).map
      fun q => (Real.exp (-M) * (q.2.2 * Real.exp (y q.1 - q.2.1)), q.1) := by
  unfold reweights at h
  have hl : logratios predict coll = coll.rows.map fun q => .fin (y q.1 - q.2.1) := by
    unfold logratios
    refine List.map_congr_left fun q hq => ?_
    rw [hy q hq]; rfl
  rw [hl] at h
  split at h
  · cases h
  · rename_i m hm
    have hfin : ∀ (l : List ℝ) (a : ℝ), ∃ M, (l.map (Ext.fin)).foldl Ext.pyMax2 (.fin a) = .fin M ∧ M ∈ a :: l ∧ ∀ b ∈ a :: l, b ≤ M := by
      intro l
      induction l with
      | nil => exact fun a => ⟨a, rfl, by simp, by simp⟩
      | cons b l ih =>
        intro a
        rw [List.map_cons, List.foldl_cons]
        by_cases hab : a < b
        · have e : Ext.pyMax2 (.fin a) (.fin b) = .fin b := by simp [Ext.pyMax2, Ext.gt, Ext.lt, hab]
          rw [e]
          obtain ⟨M, h1, h2, h3⟩ := ih b
          refine ⟨M, h1, List.mem_cons_of_mem _ h2, fun x hx => ?_⟩
          rcases List.mem_cons.1 hx with rfl | hx
          · exact hab.le.trans (h3 b List.mem_cons_self)
          · exact h3 x hx
        · have e : Ext.pyMax2 (.fin a) (.fin b) = .fin a := by simp [Ext.pyMax2, Ext.gt, Ext.lt, hab]
          rw [e]
          obtain ⟨M, h1, h2, h3⟩ := ih a
          refine ⟨M, h1, ?_, fun x hx => ?_⟩
          · rcases List.mem_cons.1 h2 with rfl | h2
            · exact List.mem_cons_self
            · exact List.mem_cons_of_mem _ (List.mem_cons_of_mem _ h2)
          · rcases List.mem_cons.1 hx with rfl | hx
            · exact h3 x List.mem_cons_self
            rcases List.mem_cons.1 hx with rfl | hx
            · exact (not_lt.1 hab).trans (h3 a List.mem_cons_self)
            · exact h3 x (List.mem_cons_of_mem _ hx)
    have hM : ∃ M, m = .fin M ∧ (∃ q ∈ coll.rows, M = y q.1 - q.2.1) ∧ ∀ q ∈ coll.rows, y q.1 - q.2.1 ≤ M := by
      cases hr : coll.rows with
      | nil => rw [hr] at hm; cases hm
      | cons q l =>
        rw [hr, List.map_cons] at hm
        obtain ⟨M, hM, hM1, hM2⟩ := hfin (l.map fun q => y q.1 - q.2.1) (y q.1 - q.2.1)
        rw [List.map_map] at hM
        rw [← List.map_cons (f := fun q : (Fin d → ℝ) × ℝ × ℝ => y q.1 - q.2.1)] at hM1 hM2
        unfold Ext.pyMax at hm
        simp only [Option.some.injEq] at hm
        refine ⟨M, by rw [← hm]; exact hM, ?_, fun q' hq' => hM2 _ (List.mem_map_of_mem hq')⟩
        obtain ⟨q', hq', he⟩ := List.mem_map.1 hM1
        exact ⟨q', hq', he.symm⟩
    obtain ⟨M, rfl, hq1, hq2⟩ := hM
    refine ⟨M, hq1, hq2, ?_⟩
    cases h
    clear hm hl hy hq1 hq2
    induction coll.rows with
    | nil => rfl
    | cons q l ih =>
      rw [List.map_cons, List.zip_cons_cons, List.filterMap_cons, List.filter_cons]
      have e : q.2.2 * Real.exp (y q.1 - q.2.1 - M) = Real.exp (-M) * (q.2.2 * Real.exp (y q.1 - q.2.1)) := by
        rw [sub_eq_add_neg (y q.1 - q.2.1), Real.exp_add]; ring
      have ek : keep Real.exp (Ext.sub (.fin (y q.1 - q.2.1)) (.fin M)) q =
          if 1 / 10 ^ 8 < q.2.2 * Real.exp (y q.1 - q.2.1 - M) then some (q.2.2 * Real.exp (y q.1 - q.2.1 - M), q.1) else none := rfl
      dsimp only
      rw [ek]
      by_cases hk : 1 / 10 ^ 8 < q.2.2 * Real.exp (y q.1 - q.2.1 - M)
      · rw [if_pos hk, if_pos (by simpa using hk), List.map_cons, e]
        exact congrArg _ ih
      · rw [if_neg hk, if_neg (by simpa using hk)]
        exact ih

/-- C107: the mean of the reweighted sample is the average with weights `w * exp(new - old)` over the points for which
it is larger than 1e-8 times the largest of the factors `exp(new - old)`. -/
theorem C107_reweighted_mean {d : ℕ} (predict : (Fin d → ℝ) → Ext ℝ) (coll : Coll d ℝ) (y : (Fin d → ℝ) → ℝ)
    (hy : ∀ q ∈ coll.rows, predict q.1 = .fin (y q.1)) (m : MeanCov d ℝ) (h : reweighted Real.exp predict coll = .ok m) :
    ∃ q0 ∈ coll.rows, (∀ q ∈ coll.rows, y q.1 - q.2.1 ≤ y q0.1 - q0.2.1) ∧ ∀ i, m.mean i = .fin
      (((coll.rows.filter fun q => decide (Real.exp (y q0.1 - q0.2.1) * (1 / 10 ^ 8) < q.2.2 * Real.exp (y q.1 - q.2.1))).map
          fun q => q.2.2 * Real.exp (y q.1 - q.2.1) * q.1 i).sum /
        ((coll.rows.filter fun q => decide (Real.exp (y q0.1 - q0.2.1) * (1 / 10 ^ 8) < q.2.2 * Real.exp (y q.1 - q.2.1))).map fun q => q.2.2 * Real.exp (y q.1 - q.2.1)).sum) := by
  unfold reweighted at h
  cases hr : reweights Real.exp predict coll with
  | error e => rw [hr] at h; cases h
  | ok p =>
    rw [hr] at h
    dsimp only at h
    obtain ⟨M, ⟨q0, hq0, hM0⟩, hM1, hM⟩ := reweights_eq predict coll p y hy hr
    refine ⟨q0, hq0, fun q hq => hM0 ▸ hM1 q hq, fun i => ?_⟩
    rw [← hM0]
    have hf : (fun q : (Fin d → ℝ) × ℝ × ℝ => decide (Real.exp M * (1 / 10 ^ 8) < q.2.2 * Real.exp (y q.1 - q.2.1))) =
        fun q => decide (1 / 10 ^ 8 < q.2.2 * Real.exp (y q.1 - q.2.1 - M)) := by
      funext q
      rw [decide_eq_decide, Real.exp_sub (y q.1 - q.2.1) M, ← mul_div_assoc q.2.2, lt_div_iff₀ (Real.exp_pos M), mul_comm (Real.exp M)]
    rw [hf]
    generalize coll.rows.filter (fun q => decide (1 / 10 ^ 8 < q.2.2 * Real.exp (y q.1 - q.2.1 - M))) = l at hM ⊢
    unfold fromSamples at h
    split at h
    · cases h
    · rename_i mm hmm
      split at h
      · cases h
      · cases h
        unfold average at hmm
        dsimp only at hmm
        split at hmm
        · cases hmm
        · split at hmm
          · cases hmm
          · cases hmm
            simp only [Ext.fin.injEq]
            rw [zip_fst_snd, hM]
            unfold wmean wsum
            rw [List.map_map, List.map_map]
            have e1 : (l.map ((fun q : ℝ × (Fin d → ℝ) => q.1 * q.2 i) ∘ fun q : (Fin d → ℝ) × ℝ × ℝ =>
                (Real.exp (-M) * (q.2.2 * Real.exp (y q.1 - q.2.1)), q.1))).sum =
                Real.exp (-M) * (l.map fun q => q.2.2 * Real.exp (y q.1 - q.2.1) * q.1 i).sum := by
              rw [← List.sum_map_mul_left]
              congr 1
              refine List.map_congr_left fun q _ => ?_
              simp only [Function.comp]
              ring
            have e2 : (l.map (Prod.fst ∘ fun q : (Fin d → ℝ) × ℝ × ℝ =>
                (Real.exp (-M) * (q.2.2 * Real.exp (y q.1 - q.2.1)), q.1))).sum =
                Real.exp (-M) * (l.map fun q => q.2.2 * Real.exp (y q.1 - q.2.1)).sum := by
              rw [← List.sum_map_mul_left]
              rfl
            rw [e1, e2, mul_div_mul_left _ _ (Real.exp_pos _).ne']

/-! ## Examples -/

/-- Divergence of the examples: difference of the first coordinates of the means. -/
def exKl (m0 : Fin 2 → Ext ℚ) (_ : Fin 2 → Fin 2 → Ext ℚ) (m1 : Fin 2 → Ext ℚ) (_ : Fin 2 → Fin 2 → Ext ℚ) : Except Cov.Err (Ext ℚ) :=
  match m0 0, m1 0 with
  | .fin a, .fin b => .ok (.fin |a - b|)
  | _, _ => .ok .nan

def exPar : Par 2 ℚ := ⟨1, 2, 1, fun _ => 1, exKl, fun _ => true⟩

/-- A sample of two points with the first coordinate `a`, for which the mean was `b`. -/
def exColl (a b : ℚ) : Coll 2 ℚ := ⟨[(![a, 0], 0, 1), (![a, 1], 0, 1)], ⟨fun _ => .fin b, ⟨2, fun _ _ => .fin 1⟩⟩⟩

def exCall (a b : ℚ) : Call 2 ℚ := ⟨none, fun _ => .fin 0, fun _ => some (exColl a b), 10, 5⟩

def exHist : List (Call 2 ℚ) := [exCall 0 0, exCall 5 8, exCall 0 0, exCall 10 12]

/-- The sample of the second call is used again in the third, and the fourth makes a new one. -/
example : (after exPar State.init exHist).kl.values = [.nan, .fin 8, .fin 3, .fin 7] ∧ reuses exPar State.init exHist = 1 := by
  decide +kernel

/-- Reuse happens (`C107_reuse`). -/
example : reusing exPar (after exPar State.init [exCall 0 0, exCall 5 8]) (exCall 0 0) = true := by decide +kernel

/-- C107 is false as documented ("number of times a sample can be reweighted and reused"): here `max_reused = 1`, the sample
of the last call is new and was never used again, the divergence is positive (2) and smaller than the last value (7), and the
sample is not used again because an older one was. -/
theorem C107_per_sample_counterexample :
    exPar.maxReused = 1 ∧ reusing exPar (after exPar State.init (exHist.take 3)) (exCall 10 12) = false ∧
    (after exPar State.init exHist).coll.map (fun k => k.rows) = some (exColl 10 12).rows ∧
    (∃ m, reweighted exPar.ex (exCall 0 0).predict (exColl 10 12) = .ok m ∧
      reuseKl exPar m (after exPar State.init exHist).kl.last = .ok (.fin 2)) ∧
    (after exPar State.init exHist).kl.values.getLast? = some (.fin 7) ∧
    reusing exPar (after exPar State.init exHist) (exCall 0 0) = false := by
  refine ⟨rfl, by decide +kernel, by decide +kernel, ?_, by decide +kernel, by decide +kernel⟩
  have h : (reweighted exPar.ex (exCall 0 0).predict (exColl 10 12)).toOption.isSome = true := by decide +kernel
  cases hr : reweighted exPar.ex (exCall 0 0).predict (exColl 10 12) with
  | error e => rw [hr] at h; cases h
  | ok m =>
    refine ⟨m, rfl, ?_⟩
    have h2 : (match reweighted exPar.ex (exCall 0 0).predict (exColl 10 12) with
      | .ok m => decide (reuseKl exPar m (after exPar State.init exHist).kl.last = .ok (.fin 2))
      | .error _ => false) = true := by decide +kernel
    rw [hr] at h2
    simpa using h2

/-- Hypotheses of `C107_one_parameter` and `C107_one_parameter_deadlock`. -/
def exColl1 : Coll 1 ℚ := ⟨[(![0], 0, 1), (![1], 0, 2)], ⟨fun _ => .fin 0, ⟨2, fun _ _ => .fin 1⟩⟩⟩

example : ∃ m, reweighted (fun _ => 1) (fun _ => .fin 0) exColl1 = .ok m := by
  have h : (reweighted (fun _ => (1 : ℚ)) (fun _ => .fin 0) exColl1).toOption.isSome = true := by decide +kernel
  cases hr : reweighted (fun _ => (1 : ℚ)) (fun _ => .fin 0) exColl1 with
  | error e => rw [hr] at h; cases h
  | ok m => exact ⟨m, rfl⟩

/-- Hypotheses of `C107_all_rejected`. -/
example : (step exPar (after exPar State.init [exCall 0 0]) ⟨none, fun _ => .negInf, fun _ => none, 3, 2⟩).2 = .error (.other .zeroDiv) :=
  C107_all_rejected exPar _ _ (exColl 0 0) rfl rfl (by simp [exColl]) fun _ _ => rfl

/-! ## Each theorem applied to concrete data -/

example : reuses exPar State.init exHist ≤ 1 := C107_reuse_bound exPar exHist

example : (step exPar (after exPar State.init exHist) (exCall 0 0)).1.thres = (after exPar State.init exHist).thres ++ [1] :=
  (C107_recorded _ _ _).1

/-- One parameter: no call succeeds. -/
example (P : Par 1 ℚ) (c : Call 1 ℚ) (hc : c.acq = none) : (step P (after P State.init [c, c, c]) c).2 ≠ .ok true :=
  C107_one_parameter P [c, c, c] c (by simp [hc]) hc true

theorem exR : ∃ m, reweighted (fun _ => 1) (fun _ => .fin 0) exColl1 = .ok m := by
  have h : (reweighted (fun _ => (1 : ℚ)) (fun _ => .fin 0) exColl1).toOption.isSome = true := by decide +kernel
  cases hr : reweighted (fun _ => (1 : ℚ)) (fun _ => .fin 0) exColl1 with
  | error e => rw [hr] at h; cases h
  | ok m => exact ⟨m, rfl⟩

example (new : MeanCov 1 ℚ) : Spmd.Deadlocks (fun r : Fin 3 => Spmd.isConvergedMPI true r
    (Spmd.meanCovFromMC r (mpiReuse (tryReuse (⟨1, 1, 1, fun _ => 1, fun _ _ _ _ => .ok .nan, fun _ => true⟩ : Par 1 ℚ) State.init
      ⟨none, fun _ => .fin 0, fun _ => none, 1, 1⟩ exColl1)) true new >>= fun _ => pure true)) := by
  obtain ⟨m, hm⟩ := exR
  exact C107_one_parameter_deadlock (by norm_num) _ _ _ _ m hm (fun _ => true) new _

/-- Equal change at all points: the mean of the chain. -/
example (m : MeanCov 1 ℝ) (h : reweighted Real.exp (fun _ => .fin 0) (⟨[(![0], 0, 1), (![3], 0, 2)], ⟨fun _ => .fin 0, ⟨2, fun _ _ => .fin 1⟩⟩⟩ : Coll 1 ℝ) = .ok m) :
    m.mean 0 = .fin 2 := by
  obtain ⟨q0, hq0, -, H⟩ := C107_reweighted_mean _ _ (fun _ => 0) (by intro q _; rfl) m h
  rw [H 0]
  have : q0.2.1 = 0 := by
    simp at hq0
    rcases hq0 with rfl | rfl <;> rfl
  rw [this]
  norm_num

end GPry.ConvMc
