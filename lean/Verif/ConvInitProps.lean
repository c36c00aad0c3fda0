import Verif.ConvInit
import Verif.ConvMcProps
import Verif.CobayaProps
import Mathlib.Tactic.Linarith
import Mathlib.Tactic.Positivity
import Mathlib.Data.Rat.Floor

set_option linter.all false

namespace GPry.ConvInit

open Cobaya

section
variable {K : Type*} [Field K] [LinearOrder K]

/-! ## Policies -/

/-- C108: the policy is the one given, in lower case, if this is one of `n`, `s`, `ns`, `m`, and `n` if none is given; anything
else raises `ValueError`. -/
theorem C108_policy (params : Option (Dict String (PVal K))) :
    (∀ pol, setPolicy params = .ok pol ↔ ((get (params.getD []) "policy" = none ∧ pol = "n".toList) ∨
      ∃ s, get (params.getD []) "policy" = some (.str s) ∧ pol = s.map Char.toLower ∧
        (pol = "n".toList ∨ pol = "s".toList ∨ pol = "ns".toList ∨ pol = "m".toList))) ∧
    ∀ e, setPolicy params = .error e → e = .value := by
  have hmem : ∀ l : List Char, l ∈ policies ↔ (l = "n".toList ∨ l = "s".toList ∨ l = "ns".toList ∨ l = "m".toList) := by
    intro l
    simp [policies]
  unfold setPolicy
  cases hg : get (params.getD []) "policy" with
  | none =>
    have e : checkPolicy (PVal.str ['n'] : PVal K) = .ok ['n'] := by
      rfl
    rw [Option.getD_none, e]
    refine ⟨fun pol => ?_, by intro e h; cases h⟩
    simp
    exact eq_comm
  | some v =>
    rw [Option.getD_some]
    cases v with
    | str s =>
      have hc : checkPolicy (PVal.str s : PVal K) = if s.map Char.toLower ∈ policies then .ok (s.map Char.toLower) else .error .value := rfl
      rw [hc]
      by_cases h : s.map Char.toLower ∈ policies
      · rw [if_pos h]
        refine ⟨fun pol => ?_, by intro e h; cases h⟩
        constructor
        · intro hp
          cases hp
          exact Or.inr ⟨s, rfl, rfl, (hmem _).1 h⟩
        · rintro (⟨hn, _⟩ | ⟨s', hs, rfl, _⟩)
          · cases hn
          · cases hs; rfl
      · rw [if_neg h]
        refine ⟨fun pol => ?_, by intro e h; cases h; rfl⟩
        constructor
        · intro hp; cases hp
        · rintro (⟨hn, _⟩ | ⟨s', hs, rfl, hm⟩)
          · cases hn
          · cases hs; exact absurd ((hmem _).2 hm) h
    | num x =>
      refine ⟨fun pol => ?_, by intro e h; cases h; rfl⟩
      simp [checkPolicy]
    | none_ =>
      refine ⟨fun pol => ?_, by intro e h; cases h; rfl⟩
      simp [checkPolicy]
    | other =>
      refine ⟨fun pol => ?_, by intro e h; cases h; rfl⟩
      simp [checkPolicy]

example : setPolicy (K := ℚ) (some [("policy", .str "NS".toList)]) = .ok "ns".toList := by decide

/-! ## Number of times -/

variable [IsStrictOrderedRing K] [FloorRing K]

/-- C108: the number of times is the nearest whole number, an even one in case of doubt. -/
theorem C108_round (x : K) : |(roundEven x : K) - x| ≤ 1 / 2 ∧ (|(roundEven x : K) - x| = 1 / 2 → Even (roundEven x)) := by
  have h0 := Int.fract_nonneg x
  have h1 := Int.fract_lt_one x
  have hx : (⌊x⌋ : K) = x - Int.fract x := by rw [Int.self_sub_fract]
  unfold roundEven
  split
  · rename_i h
    have e : |((⌊x⌋ : ℤ) : K) - x| = Int.fract x := by rw [hx, abs_sub_comm]; simp [abs_of_nonneg h0]
    rw [e]
    exact ⟨h.le, fun h2 => absurd h2 h.ne⟩
  · rename_i h
    split
    · rename_i h2
      have e : |((⌊x⌋ + 1 : ℤ) : K) - x| = 1 - Int.fract x := by
        push_cast
        rw [hx, show x - Int.fract x + 1 - x = 1 - Int.fract x by ring, abs_of_nonneg (by linarith)]
      rw [e]
      exact ⟨by linarith, fun h3 => by linarith⟩
    · rename_i h2
      have hf : Int.fract x = 1 / 2 := le_antisymm (not_lt.1 h2) (not_lt.1 h)
      split
      · rename_i h3
        have e : |((⌊x⌋ : ℤ) : K) - x| = Int.fract x := by rw [hx, abs_sub_comm]; simp [abs_of_nonneg h0]
        rw [e, hf]
        exact ⟨le_rfl, fun _ => h3⟩
      · rename_i h3
        have e : |((⌊x⌋ + 1 : ℤ) : K) - x| = 1 - Int.fract x := by
          push_cast
          rw [hx, show x - Int.fract x + 1 - x = 1 - Int.fract x by ring, abs_of_nonneg (by linarith)]
        rw [e, hf]
        refine ⟨by linarith, fun _ => ?_⟩
        rw [Int.not_even_iff_odd] at h3
        exact h3.add_one

theorem roundEven_nat (n : ℕ) : roundEven (n : K) = n := by
  unfold roundEven
  rw [Int.fract_natCast, if_pos (by norm_num), Int.floor_natCast]

/-- C108: without options, `GaussianKL` has limit 0.02 and asks for `d` times, not 2 as documented (with `d` parameters). -/
theorem C108_default_times_counterexample (intStr : List Char → Option ℤ) (d : ℕ) (hd : d ≠ 2) :
    ∃ f : Fields K, gaussianInit intStr d (some []) = .ok f ∧ f.limit = .num (2 / 100) ∧ f.limitTimes ≠ 2 ∧ f.limitTimes = d := by
  have e : setPolicy (some ([] : Dict String (PVal K))) = .ok ['n'] := by
    unfold setPolicy checkPolicy
    rfl
  have e2 : setDraws intStr ([] : Dict String (PVal K)) = .ok (.inr (.num 10)) := by
    unfold setDraws
    simp [get_nil, PVal.truthy]
  refine ⟨⟨.num (2 / 100), d, ['n'], .inr (.num 10), .num 4⟩, ?_, rfl, by show (d : ℤ) ≠ 2; omega, rfl⟩
  unfold gaussianInit
  simp only [get_nil, Option.getD_none, limitTimes, roundEven_nat, e, e2]

/-- C108: both numbers of draws given (and not zero) raise `ValueError`, whatever the rest. -/
theorem C108_both_draws (intStr : List Char → Option ℤ) (d : ℕ) (p : Dict String (PVal K)) (v w : PVal K)
    (hv : get p "n_draws" = some v) (hw : get p "n_draws_per_dimsquared" = some w) (hv' : v.truthy = true) (hw' : w.truthy = true)
    (x : K) (hx : get p "limit_times" = some (.num x) ∨ get p "limit_times" = none) :
    gaussianInit intStr d (some p) = .error .value := by
  unfold gaussianInit
  have hd : setDraws intStr p = .error .value := by
    unfold setDraws
    simp [hv, hw, hv', hw']
  have ht : ∃ t, limitTimes ((get p "limit_times").getD (.num (d : K))) = .ok t := by
    rcases hx with hx | hx <;> rw [hx] <;> exact ⟨_, rfl⟩
  obtain ⟨t, ht⟩ := ht
  dsimp only
  rw [ht]
  dsimp only
  cases hp : setPolicy (some p) with
  | error e => rw [(C108_policy (some p)).2 e hp]
  | ok pol => dsimp only; rw [hd]

/-! ## The dictionary of the caller -/

theorem get_putDefault (p : Dict String (PVal K)) (name k : String) (v : PVal K) : get (putDefault p name v) k =
    if name = k then (match get p k with
      | none => some v
      | some .none_ => some v
      | some w => some w) else get p k := by
  unfold putDefault
  by_cases h : name = k
  · subst h
    rw [if_pos rfl]
    cases hg : get p name with
    | none => simp [get_put]
    | some w => cases w <;> simp [get_put, hg]
  · rw [if_neg h]
    cases hg : get p name with
    | none => simp [get_put, h]
    | some w => cases w <;> simp [get_put, h]

/-- C108 is false for `GaussianKLTrain` and `TrainAlignment` ("building a criterion does not change the options it is given"):
if the dictionary is not empty and has no limit, afterwards it has one, so that a `GaussianKL` made from the same dictionary
has the limit (and number of times) of the former. -/
theorem C108_options_changed_counterexample (intStr : List Char → Option ℤ) (d : ℕ) (limit times : K) (p : Dict String (PVal K))
    (hp : p ≠ []) (h1 : get p "limit" = none) (h2 : get p "limit_times" = none) :
    ∃ p', (trainInit intStr d limit times (some p)).2 = some p' ∧ p' ≠ p ∧ get p' "limit" = some (.num limit) ∧
      ∀ f, gaussianInit intStr d (some p') = .ok f → f.limit = .num limit ∧ f.limitTimes = roundEven times := by
  have g1 : get (putDefault (putDefault p "limit" (.num limit)) "limit_times" (.num times)) "limit" = some (.num limit) := by
    rw [get_putDefault, if_neg (by decide), get_putDefault, if_pos rfl, h1]
  have g2 : get (putDefault (putDefault p "limit" (.num limit)) "limit_times" (.num times)) "limit_times" = some (.num times) := by
    rw [get_putDefault, if_pos rfl, get_putDefault, if_neg (by decide), h2]
  refine ⟨putDefault (putDefault p "limit" (.num limit)) "limit_times" (.num times), ?_, ?_, g1, ?_⟩
  · cases p with
    | nil => exact absurd rfl hp
    | cons a p => rfl
  · intro h
    rw [h, h1] at g1
    cases g1
  · intro f hf
    unfold gaussianInit at hf
    dsimp only at hf
    rw [g1, g2] at hf
    simp only [Option.getD_some, limitTimes] at hf
    split at hf
    · cases hf
    · split at hf
      · cases hf
      · cases hf
        exact ⟨rfl, rfl⟩

/-- But not if it is empty. -/
theorem C108_options_kept (intStr : List Char → Option ℤ) (d : ℕ) (limit times : K) :
    (trainInit intStr d limit times (some [])).2 = some [] ∧ (trainInit intStr d limit times none).2 = none := ⟨rfl, rfl⟩

example : ∃ p : Dict String (PVal ℚ), p ≠ [] ∧ get p "limit" = none ∧ get p "limit_times" = none :=
  ⟨[("policy", .str ['n'])], by simp, by decide, by decide⟩

/-! ## Tolerances of CorrectCounter -/

omit [IsStrictOrderedRing K] [FloorRing K] in
/-- C108: a tolerance given as a string must be a number followed by `l`, `s` or `r`, which stand for a factor of the number of
standard deviations, its square, or its square root; anything else that is a string raises `ValueError`. -/
theorem C108_tolerance (float : List Char → Option K) (sqrt : K → K) (nstd : K) :
    (∀ (s : List Char) (x : K), float s = some x →
      tolerance float sqrt nstd (.str (s ++ ['l'])) = .ok (.num (x * nstd)) ∧
      tolerance float sqrt nstd (.str (s ++ ['s'])) = .ok (.num (x * nstd ^ 2)) ∧
      tolerance float sqrt nstd (.str (s ++ ['r'])) = .ok (.num (x * sqrt nstd))) ∧
    (∀ (s : List Char) (c : Char), float s = none ∨ (c ≠ 'l' ∧ c ≠ 's' ∧ c ≠ 'r') →
      tolerance float sqrt nstd (.str (s ++ [c])) = .error .value) ∧
    tolerance float sqrt nstd (.str []) = .error .value ∧
    ∀ x, tolerance float sqrt nstd (.num x) = .ok (.num x) := by
  refine ⟨fun s x hx => ?_, fun s c hc => ?_, ?_, fun _ => rfl⟩
  · simp [tolerance, hx]
  · unfold tolerance
    simp only [List.getLast?_append, List.getLast?_singleton, Option.some_or, List.dropLast_concat]
    rcases hc with hc | ⟨h1, h2, h3⟩
    · rw [hc]; split <;> simp_all
    · split <;> simp_all
  · unfold tolerance
    rfl

/-! ## Part of the training set used by TrainAlignment -/

/-- C108: with a fraction between 0 and 1, the last `int(n * frac)` points are used, if this is not zero. -/
theorem C108_training_part {A : Type*} (frac : K) (hf : 0 ≤ frac) (hf1 : frac ≤ 1) (X : List A) (h : 1 ≤ (X.length : K) * frac) :
    ∃ Y, X = Y ++ trainingPart frac X ∧ ((trainingPart frac X).length : ℤ) = ⌊(X.length : K) * frac⌋ := by
  have hnn : (0 : K) ≤ (X.length : K) * frac := by linarith
  have hfl : 1 ≤ ⌊(X.length : K) * frac⌋ := Int.le_floor.2 (by simpa using h)
  have hle : ⌊(X.length : K) * frac⌋ ≤ X.length := by
    have : (X.length : K) * frac ≤ X.length := by
      calc (X.length : K) * frac ≤ X.length * 1 := mul_le_mul_of_nonneg_left hf1 (Nat.cast_nonneg _)
        _ = X.length := mul_one _
    have := Int.floor_le_floor this
    simpa using this
  unfold trainingPart trunc Conv.lastN
  rw [if_pos hnn]
  have hne : ⌊(X.length : K) * frac⌋.toNat ≠ 0 := by omega
  rw [if_neg hne]
  refine ⟨X.take (X.length - ⌊(X.length : K) * frac⌋.toNat), (List.take_append_drop _ _).symm, ?_⟩
  rw [List.length_drop]
  omega

/-- C108 is false for fractions that give less than one point: then the whole training set is used (`X[-0:]`). -/
theorem C108_small_fraction_counterexample {A : Type*} (frac : K) (hf : 0 ≤ frac) (X : List A) (h : (X.length : K) * frac < 1) :
    trainingPart frac X = X := by
  have hnn : (0 : K) ≤ (X.length : K) * frac := mul_nonneg (Nat.cast_nonneg _) hf
  have hfl : ⌊(X.length : K) * frac⌋ = 0 := Int.floor_eq_zero_iff.2 ⟨hnn, h⟩
  unfold trainingPart trunc Conv.lastN
  rw [if_pos hnn, hfl]
  rfl

example : trainingPart (1 / 2 : ℚ) [1, 2, 3, 4, 5] = [4, 5] ∧ trainingPart (1 / 10 : ℚ) [1, 2, 3, 4, 5] = [1, 2, 3, 4, 5] := by
  decide +kernel

/-! ## History -/

omit [IsStrictOrderedRing K] [FloorRing K] in
theorem length_after {d : ℕ} (P : ConvMc.Par d K) : ∀ (h : List (ConvMc.Call d K)) (s : ConvMc.State d K), s.kl.values.length = s.evals.length →
    (ConvMc.after P s h).kl.values.length = (ConvMc.after P s h).evals.length
  | [], _, hs => hs
  | c :: h, s, hs => by
    rw [ConvMc.after_cons]
    refine length_after P h _ ?_
    obtain ⟨_, h1, h2⟩ := ConvMc.C107_recorded P s c
    by_cases he : ∃ e, (ConvMc.step P s c).2 = .error (.other e)
    · obtain ⟨a, b⟩ := h1 he
      rw [a, b, hs]
    · obtain ⟨a, v, b, _⟩ := h2 he
      rw [a, b, List.length_append, List.length_append, hs]
      rfl

omit [IsStrictOrderedRing K] [FloorRing K] in
/-- C108: `get_history` of `GaussianKL` raises `ValueError` if no call has been recorded, and otherwise returns lists of the same
length. -/
theorem C108_history {d : ℕ} (P : ConvMc.Par d K) (h : List (ConvMc.Call d K)) :
    let s := ConvMc.after P ConvMc.State.init h
    (s.kl.values = [] → getHistory (some (s.kl.values, s.evals.map Prod.fst, s.evals.map Prod.snd)) = .error .value) ∧
    (s.kl.values ≠ [] → ∃ v n a, getHistory (some (s.kl.values, s.evals.map Prod.fst, s.evals.map Prod.snd)) = .ok (v, n, a) ∧
      v = s.kl.values ∧ n.length = v.length ∧ a.length = v.length) := by
  intro s
  have hl : s.kl.values.length = s.evals.length := length_after P h ConvMc.State.init rfl
  refine ⟨fun h0 => ?_, fun h0 => ?_⟩
  · unfold getHistory
    rw [h0]
    simp
  · refine ⟨s.kl.values, s.evals.map Prod.fst, s.evals.map Prod.snd, ?_, rfl, by simp [hl], by simp [hl]⟩
    unfold getHistory
    dsimp only
    rw [if_neg]
    rw [List.length_map, ← hl]
    simpa using h0

omit [IsStrictOrderedRing K] [FloorRing K] in
/-- C108: a number of times that is rounded to zero does not mean that a single check is enough: the criterion then looks at
all the values, the first of which is NaN, so that it never tells of convergence. -/
theorem C108_zero_times {d : ℕ} (P : ConvMc.Par d K) (hP : P.limitTimes = 0) (h : List (ConvMc.Call d K)) (c : ConvMc.Call d K) :
    (ConvMc.step P (ConvMc.after P ConvMc.State.init h) c).2 ≠ .ok true := by
  have hinv := ConvMc.inv_step P _ c (ConvMc.inv_after P h _ (ConvMc.inv_init (d := d) (K := K)))
  intro hok
  set s := ConvMc.after P ConvMc.State.init h with hs
  rcases ConvMc.step_cases P s c with ⟨e, _, h2⟩ | ⟨_, h2⟩ | ⟨b, m, _, h2⟩
  · rw [h2] at hok; cases hok
  · rw [h2] at hok
    unfold ConvMc.finish Conv.KL.gaussian at hok
    cases hok
  · rw [h2] at hok hinv
    have hv : (ConvMc.finish P (ConvMc.getNew P s c).1 c (some m)).1.kl.values.head? = some .nan := by
      rcases hinv with ⟨h1, _, _⟩ | ⟨h1, _⟩
      · obtain ⟨v, hv, _⟩ := ConvMc.gaussian_values (ConvMc.klOpt P) (ConvMc.getNew P s c).1.kl (some m)
        unfold ConvMc.finish at h1
        dsimp only at h1
        rw [ConvMc.converged_fst, hv] at h1
        simp at h1
      · exact h1
    unfold ConvMc.finish at hok hv
    dsimp only at hok hv
    rw [ConvMc.converged_fst] at hv
    generalize Conv.KL.gaussian (ConvMc.klOpt P) (ConvMc.getNew P s c).1.kl (some m) = r at hok hv
    rcases r with ⟨k, e | v⟩
    · cases hok
    · unfold Conv.KL.converged ConvMc.outcome at hok
      dsimp only at hok hv
      simp only [Except.ok.injEq, hP, Conv.lastN, if_true] at hok
      rw [List.all_eq_true] at hok
      have := hok .nan (List.mem_of_mem_head? (by rw [hv]; rfl))
      simp [Conv.absLt] at this

omit [IsStrictOrderedRing K] [FloorRing K] in
/-- C108: `DontConverge` never tells of convergence and records every call. -/
theorem C108_dont_converge (h : List (ℕ × ℕ)) :
    Conv.runCalls (dontStep (K := K)) ([], []) h = ((List.replicate h.length .nan, h), List.replicate h.length false) := by
  have key : ∀ (h : List (ℕ × ℕ)) (v : List (Ext K)) (e : List (ℕ × ℕ)),
      Conv.runCalls (dontStep (K := K)) (v, e) h = ((v ++ List.replicate h.length .nan, e ++ h), List.replicate h.length false) := by
    intro h
    induction h with
    | nil => intro v e; simp [Conv.runCalls]
    | cons c h ih =>
      intro v e
      unfold Conv.runCalls
      simp only [dontStep, ih]
      simp [List.replicate_succ]
  simpa using key h [] []

end

/-! ## Each theorem applied to concrete data -/

/-- 5/2 is rounded to an even number. -/
example : |((roundEven (5 / 2 : ℚ) : ℤ) : ℚ) - 5 / 2| ≤ 1 / 2 ∧ Even (roundEven (5 / 2 : ℚ)) := by
  refine ⟨(C108_round _).1, (C108_round _).2 ?_⟩
  have : roundEven (5 / 2 : ℚ) = 2 := by decide +kernel
  rw [this]; norm_num

example : gaussianInit (K := ℚ) (fun _ => none) 2 (some [("n_draws", .num 100), ("n_draws_per_dimsquared", .num 10)]) = .error .value :=
  C108_both_draws _ _ _ (.num 100) (.num 10) (by decide +kernel) (by decide +kernel) (by decide +kernel) (by decide +kernel) 0 (.inr (by decide +kernel))

def exFloat (s : List Char) : Option ℚ := if s = ['3'] then some 3 else none

example : tolerance exFloat id 5 (.str ['3', 's']) = .ok (.num 75) ∧ tolerance exFloat id 5 (.str ['3', 'x']) = .error .value := by
  obtain ⟨h1, h2, -⟩ := C108_tolerance exFloat id 5
  refine ⟨?_, h2 ['3'] 'x' (.inr (by decide))⟩
  have := (h1 ['3'] 3 rfl).2.1
  norm_num at this ⊢
  exact this

example : ∃ Y, [1, 2, 3, 4, 5] = Y ++ trainingPart (1 / 2 : ℚ) [1, 2, 3, 4, 5] ∧ ((trainingPart (1 / 2 : ℚ) [1, 2, 3, 4, 5]).length : ℤ) = ⌊(5 : ℚ) * (1 / 2)⌋ := by
  have := C108_training_part (1 / 2 : ℚ) (by norm_num) (by norm_num) [1, 2, 3, 4, 5] (by norm_num)
  simpa using this

/-- The history of the example of `ConvMcProps`. -/
example : ∃ v n a, getHistory (some ((ConvMc.after ConvMc.exPar ConvMc.State.init ConvMc.exHist).kl.values,
      (ConvMc.after ConvMc.exPar ConvMc.State.init ConvMc.exHist).evals.map Prod.fst,
      (ConvMc.after ConvMc.exPar ConvMc.State.init ConvMc.exHist).evals.map Prod.snd)) = .ok (v, n, a) ∧ n.length = 4 ∧ a.length = 4 := by
  have hv : (ConvMc.after ConvMc.exPar ConvMc.State.init ConvMc.exHist).kl.values = [.nan, .fin 8, .fin 3, .fin 7] := by decide +kernel
  obtain ⟨v, n, a, h, h1, h2, h3⟩ := (C108_history ConvMc.exPar ConvMc.exHist).2 (by rw [hv]; simp)
  rw [hv] at h1
  subst h1
  exact ⟨_, n, a, h, h2, h3⟩

example : (ConvMc.step { ConvMc.exPar with limitTimes := 0 } (ConvMc.after { ConvMc.exPar with limitTimes := 0 } ConvMc.State.init ConvMc.exHist) (ConvMc.exCall 0 0)).2 ≠ .ok true :=
  C108_zero_times _ rfl _ _

example : Conv.runCalls (dontStep (K := ℚ)) ([], []) [(10, 8), (12, 9)] = (([.nan, .nan], [(10, 8), (12, 9)]), [false, false]) := C108_dont_converge _

end GPry.ConvInit
