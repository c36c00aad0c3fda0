import Verif.Run
import Verif.MpiProps
import Verif.GprProps
import Mathlib.Tactic.Linarith
import Mathlib.Tactic.Ring
import Mathlib.Data.List.Perm.Basic

set_option linter.all false

/-!
# Proofs about the runner: C32, C33, C34, C38, C39, C68, C76
-/

namespace GPry.Run

/-! ## C68: options -/

/-- **C68**: if the options are accepted, the budget is consistent; the number of points per acquisition is positive
and at most 20 per cent smaller than requested, and it is a multiple of the number of processes whenever it was
changed. -/
theorem C68_options_consistent {d size : ℕ} {u : UserOpts} {o : Opts} (h : construct d size u = .ok o) :
    2 ≤ o.nInitial ∧ o.nInitial ≤ o.maxInitial ∧ o.maxInitial ≤ o.maxTotal ∧
    o.nInitial ≤ o.maxFinite ∧ o.maxFinite ≤ o.maxTotal ∧
    1 ≤ o.fitFull ∧ 1 ≤ o.fitSimple ∧ 1 ≤ o.nAcq ∧
    (let req := min 1000000000 (u.nAcq.getD d)
     o.nAcq ≤ req ∧ 4 * req ≤ 5 * o.nAcq ∧ (o.nAcq = req ∨ (size : ℤ) ∣ o.nAcq)) := by
  unfold construct at h
  dsimp only at h
  split_ifs at h with h1 h2 h3 h4 h5
  simp only [not_or, not_le, not_lt] at h1 h2 h3 h4 h5
  obtain ⟨a1, a2, a3, a4, a5, a6, a7⟩ := h1
  cases h
  dsimp only
  have hn : (2 : ℤ) ≤ cap (max (u.nInitial.getD (3 * d)) 2) := by
    unfold cap; omega
  refine ⟨hn, h2, h4, h3, h5, by omega, by omega, ?_⟩
  change _ ∧ roundAcq (cap (u.nAcq.getD d)) size ≤ cap (u.nAcq.getD d) ∧
    4 * cap (u.nAcq.getD d) ≤ 5 * roundAcq (cap (u.nAcq.getD d)) size ∧
    (roundAcq (cap (u.nAcq.getD d)) size = cap (u.nAcq.getD d) ∨ _)
  generalize cap (u.nAcq.getD d) = n at a5 ⊢
  unfold roundAcq
  dsimp only
  split_ifs with hr
  · have h0 : 0 ≤ n % (size : ℤ) := by
      rcases Nat.eq_zero_or_pos size with rfl | hp
      · simp; omega
      · exact Int.emod_nonneg _ (by omega)
    refine ⟨by omega, by omega, by omega, Or.inr ?_⟩
    exact Int.dvd_self_sub_emod
  · exact ⟨by omega, le_rfl, by omega, Or.inl rfl⟩

/-- C68: the hypotheses are met by non-default options, with rounding (12 points for 5 processes become 10). -/
example : construct 2 5 { maxTotal := some 100, nAcq := some 12, fitFull := some (-3) } =
    .ok ⟨6, 84, 100, 100, 10, 1, 1, 2⟩ := by decide +kernel

theorem timesD15_le {a b d : ℕ} (h : a ≤ b) : timesD15 a d ≤ timesD15 b d := by
  unfold timesD15
  exact_mod_cast Nat.sqrt_le_sqrt (Nat.mul_le_mul_right _ (Nat.mul_le_mul h h))

theorem le_timesD15 (c d : ℕ) : ((c * d : ℕ) : ℤ) ≤ timesD15 c d := by
  unfold timesD15
  have : c * d ≤ Nat.sqrt (c * c * (d * d * d)) := by
    rw [Nat.le_sqrt]
    rcases Nat.eq_zero_or_pos d with rfl | hd
    · simp
    · calc c * d * (c * d) = c * c * (d * d * 1) := by ring
        _ ≤ c * c * (d * d * d) := Nat.mul_le_mul_left _ (Nat.mul_le_mul_left _ hd)
  exact_mod_cast this

/-- **C68**: the default options are accepted in every dimension and with every number of processes. -/
theorem C68_defaults_accepted {d : ℕ} (hd : 0 < d) (size : ℕ) : ∃ o, construct d size {} = .ok o := by
  have h30 := le_timesD15 30 d
  have h37 := timesD15_le (d := d) (show 30 ≤ 70 by omega)
  have h4 : 1 ≤ Nat.sqrt (4 * d) := by rw [Nat.le_sqrt]; omega
  unfold construct cap
  simp only [Option.getD_none]
  generalize timesD15 30 d = a at *
  generalize timesD15 70 d = b at *
  generalize Nat.sqrt (4 * d) = s at *
  push_cast at h30
  rw [if_neg (by omega), if_neg (by omega), if_neg (by omega), if_neg (by omega), if_neg (by omega)]
  exact ⟨_, rfl⟩

/-- C68: asking only for a small total budget is refused (the default of `max_initial` does not adapt to it): for every
dimension and every `max_total < 30 d^1.5` (below the cap). -/
theorem C68_small_total_refused {d size : ℕ} {t : ℤ} (ht : t < timesD15 30 d) (hc : t < 1000000000) :
    construct d size { maxTotal := some t } = .error .valueError := by
  unfold construct cap
  simp only [Option.getD_none, Option.getD_some]
  generalize timesD15 30 d = a at *
  split_ifs with h1 h2 h3 h4 h5
  all_goals first | rfl | (exfalso; omega)

example : (50 : ℤ) < timesD15 30 4 ∧ timesD15 30 4 = 240 := by decide +kernel

/-! ## C32, C33: the loop -/

section Loop
variable {G X : Type*} {o : Opts} {mc : Bool} {nT nF : G → ℕ} {steps : ℕ → G → Step G X}

theorem iterate_cases (s : Step G X) (st : St G X) :
    ((s.cands.length : ℤ) < max 1 (o.nAcq / 2) ∧ o.nResamples < (st.resamples + 1 : ℕ) ∧
      iterate o mc s st = ({ st with
        iter := st.iter + 1, resamples := st.resamples + 1, trace := .insufficient :: st.trace }, .break_)) ∨
    ((s.cands.length : ℤ) < max 1 (o.nAcq / 2) ∧ ((st.resamples + 1 : ℕ) : ℤ) ≤ o.nResamples ∧
      iterate o mc s st = ({ st with
        iter := st.iter + 1, resamples := st.resamples + 1, trace := .insufficient :: st.trace }, .next)) ∨
    (1 ≤ s.cands.length ∧ max 1 (o.nAcq / 2) ≤ s.cands.length ∧ ∃ e, s.fit st.gpr = .error e ∧
      iterate o mc s st = ({ st with
        iter := st.iter + 1, resamples := 0, evals := st.evals ++ s.cands }, .raise (.fit e))) ∨
    (1 ≤ s.cands.length ∧ max 1 (o.nAcq / 2) ≤ s.cands.length ∧ ∃ g, s.fit st.gpr = .ok g ∧
      ((s.conv = true ∧ mc = true ∧ iterate o mc s st =
          (⟨g, s.diag, 0, st.iter + 1, .evaluated (st.iter + 1) s.cands.length true s.diag :: st.trace,
            st.evals ++ s.cands⟩, .next)) ∨
       (s.conv = true ∧ mc = false ∧ iterate o mc s st =
          (⟨g, true, 0, st.iter + 1, st.trace, st.evals ++ s.cands⟩, .raise .attributeError)) ∨
       (s.conv = false ∧ iterate o mc s st =
          (⟨g, false, 0, st.iter + 1, .evaluated (st.iter + 1) s.cands.length false false :: st.trace,
            st.evals ++ s.cands⟩, .next)))) := by
  by_cases h1 : (s.cands.length : ℤ) < max 1 (o.nAcq / 2)
  · by_cases h2 : o.nResamples < (st.resamples + 1 : ℕ)
    · exact Or.inl ⟨h1, h2, by simp only [iterate]; rw [if_pos h1, if_pos h2]⟩
    · exact Or.inr (Or.inl ⟨h1, not_lt.1 h2, by simp only [iterate]; rw [if_pos h1, if_neg h2]⟩)
  · right; right
    have h1' : 1 ≤ s.cands.length := by omega
    cases hf : s.fit st.gpr with
    | error e =>
      exact Or.inl ⟨h1', not_lt.1 h1, e, rfl, by simp only [iterate]; rw [if_neg h1]; simp only [hf]⟩
    | ok g =>
      refine Or.inr ⟨h1', not_lt.1 h1, g, rfl, ?_⟩
      cases hc : s.conv with
      | false => exact Or.inr (Or.inr ⟨rfl, by simp only [iterate]; rw [if_neg h1]; simp [hf, hc]⟩)
      | true =>
        cases mc with
        | false => exact Or.inr (Or.inl ⟨rfl, rfl, by simp only [iterate]; rw [if_neg h1]; simp [hf, hc]⟩)
        | true => exact Or.inl ⟨rfl, rfl, by simp only [iterate]; rw [if_neg h1]; simp [hf, hc]⟩

theorem loop_mono : ∀ (fuel : ℕ) (st : St G X) (r : St G X × Exit), loop o mc nT nF steps fuel st = some r →
    ∀ fuel', fuel ≤ fuel' → loop o mc nT nF steps fuel' st = some r := by
  intro fuel
  induction fuel with
  | zero => intro st r h; simp [loop] at h
  | succ n ih =>
    intro st r h fuel' hf
    obtain ⟨m, rfl⟩ : ∃ m, fuel' = m + 1 := ⟨fuel' - 1, by omega⟩
    unfold loop at h ⊢
    split_ifs at h ⊢ with hc
    · generalize iterate o mc (steps st.iter st.gpr) st = it at h ⊢
      obtain ⟨st', c⟩ := it
      cases c with
      | next => exact ih st' r h m (by omega)
      | break_ => exact h
      | raise e => exact h
    · exact h

/-- Measure for termination. -/
def meas (o : Opts) (nT : G → ℕ) (st : St G X) : ℕ :=
  (o.maxTotal - nT st.gpr).toNat * (o.nResamples.toNat + 2) + (o.nResamples.toNat + 2 - st.resamples)

theorem loop_term (I : G → Prop)
    (hfit : ∀ i g g', I g → (steps i g).fit g = .ok g' → I g' ∧ nT g' = nT g + (steps i g).cands.length) :
    ∀ (fuel : ℕ) (st : St G X), I st.gpr → st.resamples ≤ o.nResamples.toNat → meas o nT st < fuel →
      ∃ r, loop o mc nT nF steps fuel st = some r := by
  intro fuel
  induction fuel with
  | zero => intro st _ _ h; omega
  | succ n ih =>
    intro st hI hres hm
    unfold loop
    split_ifs with hc
    · rcases iterate_cases (o := o) (mc := mc) (steps st.iter st.gpr) st with
        ⟨_, _, he⟩ | ⟨_, h2, he⟩ | ⟨_, _, e, _, he⟩ | ⟨hpos, _, g, hf, hh⟩
      · rw [he]; exact ⟨_, rfl⟩
      · rw [he]
        dsimp only
        apply ih
        · exact hI
        · dsimp only; omega
        · unfold meas at hm ⊢
          dsimp only
          omega
      · rw [he]; exact ⟨_, rfl⟩
      · obtain ⟨hI', hn⟩ := hfit _ _ _ hI hf
        have hdec : ∀ (b : Bool) (i : ℕ) (t : List Event) (ev : List X), meas o nT (⟨g, b, 0, i, t, ev⟩ : St G X) < n := by
          intro b i t ev
          unfold meas at hm ⊢
          dsimp only
          have : (o.maxTotal - nT g).toNat + 1 ≤ (o.maxTotal - nT st.gpr).toNat := by omega
          have h3 := Nat.mul_le_mul_right (o.nResamples.toNat + 2) this
          rw [Nat.add_mul] at h3
          omega
        rcases hh with ⟨_, _, he⟩ | ⟨_, _, he⟩ | ⟨_, he⟩
        · rw [he]; exact ih _ hI' (by simp) (hdec _ _ _ _)
        · rw [he]; exact ⟨_, rfl⟩
        · rw [he]; exact ih _ hI' (by simp) (hdec _ _ _ _)
    · exact ⟨_, rfl⟩

theorem loop_budget (I : G → Prop) (hacq : ∀ i g, ((steps i g).cands.length : ℤ) ≤ o.nAcq)
    (hfit : ∀ i g g', I g → (steps i g).fit g = .ok g' → I g' ∧ nT g' = nT g + (steps i g).cands.length) (n0 : ℕ) :
    ∀ (fuel : ℕ) (st : St G X) (r : St G X × Exit), I st.gpr → nT st.gpr = n0 + st.evals.length →
      ((n0 + st.evals.length : ℤ) ≤ o.maxTotal + o.nAcq - 1 ∨ st.evals = []) →
      loop o mc nT nF steps fuel st = some r →
      ((n0 + r.1.evals.length : ℤ) ≤ o.maxTotal + o.nAcq - 1 ∨ r.1.evals = []) ∧
      (o.maxTotal ≤ n0 + st.evals.length → r.1.evals = st.evals) := by
  intro fuel
  induction fuel with
  | zero => intro st r _ _ _ h; simp [loop] at h
  | succ n ih =>
    intro st r hI hn hb h
    unfold loop at h
    split_ifs at h with hc
    · have hlt : (n0 + st.evals.length : ℤ) < o.maxTotal := by
        have := hc.1; rw [hn] at this; push_cast at this; omega
      have hnew : (n0 + (st.evals ++ (steps st.iter st.gpr).cands).length : ℤ) ≤ o.maxTotal + o.nAcq - 1 := by
        have := hacq st.iter st.gpr
        rw [List.length_append]; push_cast; omega
      refine ⟨?_, fun hh => absurd hlt (by omega)⟩
      rcases iterate_cases (o := o) (mc := mc) (steps st.iter st.gpr) st with
        ⟨_, _, he⟩ | ⟨_, h2, he⟩ | ⟨_, _, e, _, he⟩ | ⟨hpos, _, g, hf, hh⟩
      · rw [he] at h; cases h; exact hb
      · rw [he] at h
        have := fun a b c => ih _ _ a b c h
        exact (this hI hn hb).1
      · rw [he] at h; cases h; exact Or.inl hnew
      · obtain ⟨hI', hn'⟩ := hfit _ _ _ hI hf
        have hn2 : nT g = n0 + (st.evals ++ (steps st.iter st.gpr).cands).length := by
          rw [hn', hn, List.length_append]; omega
        rcases hh with ⟨_, _, he⟩ | ⟨_, _, he⟩ | ⟨_, he⟩
        · rw [he] at h; exact (ih _ _ hI' hn2 (Or.inl hnew) h).1
        · rw [he] at h; cases h; exact Or.inl hnew
        · rw [he] at h; exact (ih _ _ hI' hn2 (Or.inl hnew) h).1
    · cases h
      exact ⟨hb, fun _ => rfl⟩

/-- **C32**: whatever the acquisition engine, the truth, the convergence criteria and the diagnosis do, as long as an
acquisition returns at most `n_points_per_acq` points and fitting `k` points raises the number of points by `k` (`I` is
any property of the surrogate kept by the fits), the loop ends: after the number of iterations written below the result
`r` is there and does not change any more.  At most `max_total + n_points_per_acq - 1` points are evaluated in total,
and none at all if the budget was already used up. -/
theorem C32_terminates_within_budget (I : G → Prop) (hacq : ∀ i g, ((steps i g).cands.length : ℤ) ≤ o.nAcq)
    (hfit : ∀ i g g', I g → (steps i g).fit g = .ok g' → I g' ∧ nT g' = nT g + (steps i g).cands.length)
    (g : G) (hI : I g) :
    ∃ r : St G X × Exit,
      (∀ fuel, (o.maxTotal - nT g).toNat * (o.nResamples.toNat + 2) + (o.nResamples.toNat + 2) < fuel →
        runLoop o mc nT nF steps fuel g = some r) ∧
      (nT g < o.maxTotal → (nT g + r.1.evals.length : ℤ) ≤ o.maxTotal + o.nAcq - 1) ∧
      (o.maxTotal ≤ nT g → r.1.evals = []) := by
  obtain ⟨N, hN⟩ : ∃ N, N = (o.maxTotal - nT g).toNat * (o.nResamples.toNat + 2) + (o.nResamples.toNat + 2) := ⟨_, rfl⟩
  obtain ⟨r, hr⟩ := loop_term (o := o) (mc := mc) (nF := nF) I hfit (N + 1) (.start g) hI (by simp [St.start])
    (by unfold meas; simp only [St.start, Nat.sub_zero]; omega)
  have hb := loop_budget I hacq hfit (nT g) (N + 1) (.start g) r hI (by simp [St.start]) (Or.inr rfl) hr
  have key : ∀ fuel, N < fuel → loop o mc nT nF steps fuel (.start g) = some r :=
    fun fuel hf => loop_mono _ _ _ hr _ (by omega)
  obtain ⟨st, e⟩ := r
  have hbounds : (nT g < o.maxTotal → (nT g + st.evals.length : ℤ) ≤ o.maxTotal + o.nAcq - 1) ∧
      (o.maxTotal ≤ nT g → st.evals = []) := by
    constructor
    · intro hlt
      rcases hb.1 with h | h
      · exact h
      · have := hacq 0 g
        rw [h, List.length_nil]; push_cast; omega
    · intro hle
      simpa [St.start] using hb.2 (by simpa [St.start] using hle)
  cases e with
  | finished =>
    by_cases hcond : st.hasConverged = false ∧ mc = false
    · exact ⟨(st, .raised .attributeError), fun fuel hf => by
        rw [← hN] at hf
        unfold runLoop; rw [key fuel hf]; simp only; rw [if_pos hcond], hbounds⟩
    · exact ⟨(st, .finished), fun fuel hf => by
        rw [← hN] at hf
        unfold runLoop; rw [key fuel hf]; simp only; rw [if_neg hcond], hbounds⟩
  | gaveUp =>
    exact ⟨(st, .gaveUp), fun fuel hf => by
      rw [← hN] at hf
      unfold runLoop; rw [key fuel hf], hbounds⟩
  | raised e =>
    exact ⟨(st, .raised e), fun fuel hf => by
      rw [← hN] at hf
      unfold runLoop; rw [key fuel hf], hbounds⟩

/-- Number of insufficient acquisitions since the last evaluation (events newest first). -/
def streak (tr : List Event) : ℕ := (tr.takeWhile (· = .insufficient)).length

/-- The newest event is an evaluation in which the criteria were fulfilled and the diagnosis passed. -/
def LastConverged (tr : List Event) : Prop := ∃ it n, tr.head? = some (.evaluated it n true true)

/-- Invariant of the loop. -/
structure LInv (st : St G X) : Prop where
  res : st.resamples = streak st.trace
  conv : st.hasConverged = true ↔ LastConverged st.trace

theorem linv_start (g : G) : LInv (St.start g : St G X) :=
  ⟨rfl, by simp [St.start, LastConverged]⟩

theorem loop_exit : ∀ (fuel : ℕ) (st : St G X) (r : St G X × Exit), LInv st →
    loop o mc nT nF steps fuel st = some r →
    (∀ e, r.2 ≠ .raised e) →
    LInv r.1 ∧
    (r.2 = .gaveUp → o.nResamples < streak r.1.trace ∧ r.1.hasConverged = false ∧
      nT r.1.gpr < o.maxTotal ∧ nF r.1.gpr < o.maxFinite) ∧
    (r.2 = .finished → r.1.hasConverged = true ∨ o.maxTotal ≤ nT r.1.gpr ∨ o.maxFinite ≤ nF r.1.gpr) ∧
    (r.2 = .finished → (st.resamples : ℤ) ≤ max 0 o.nResamples → (streak r.1.trace : ℤ) ≤ max 0 o.nResamples) := by
  intro fuel
  induction fuel with
  | zero => intro st r _ h; simp [loop] at h
  | succ n ih =>
    intro st r hL h hne
    unfold loop at h
    split_ifs at h with hc
    · have hLi : LInv ({ st with
          iter := st.iter + 1, resamples := st.resamples + 1, trace := .insufficient :: st.trace } : St G X) := by
        constructor
        · have := hL.res
          simp only [streak, List.takeWhile_cons, decide_true, if_true, List.length_cons] at this ⊢
          omega
        · simp [LastConverged, hc.2.2]
      have hLe : ∀ (g : G) (b d : Bool) (ev : List X), LInv (⟨g, b && d, 0, st.iter + 1,
          .evaluated (st.iter + 1) (steps st.iter st.gpr).cands.length b d :: st.trace, ev⟩ : St G X) := by
        intro g b d ev
        constructor
        · simp [streak]
        · simp [LastConverged]
      rcases iterate_cases (o := o) (mc := mc) (steps st.iter st.gpr) st with
        ⟨_, h2, he⟩ | ⟨_, h2, he⟩ | ⟨_, _, e, _, he⟩ | ⟨hpos, _, g, hf, hh⟩
      · rw [he] at h; cases h
        refine ⟨hLi, fun _ => ⟨?_, hc.2.2, by dsimp only; omega, by dsimp only; omega⟩, by simp, by simp⟩
        rw [← hLi.res]; exact h2
      · rw [he] at h
        obtain ⟨a, b, c, d⟩ := ih _ _ hLi h hne
        refine ⟨a, b, c, fun hf hr => d hf ?_⟩
        dsimp only; omega
      · rw [he] at h; cases h; exact absurd rfl (hne _)
      · rcases hh with ⟨_, _, he⟩ | ⟨_, _, he⟩ | ⟨_, he⟩
        · rw [he] at h
          obtain ⟨a, b, c, d⟩ := ih _ _ (by simpa using hLe g true _ _) h hne
          exact ⟨a, b, c, fun hf _ => d hf (by simp)⟩
        · rw [he] at h; cases h; exact absurd rfl (hne _)
        · rw [he] at h
          obtain ⟨a, b, c, d⟩ := ih _ _ (by simpa using hLe g false false _) h hne
          exact ⟨a, b, c, fun hf _ => d hf (by simp)⟩
    · cases h
      refine ⟨hL, by simp, fun _ => ?_, fun _ hr => by rw [← hL.res]; exact hr⟩
      dsimp only
      by_cases hh : st.hasConverged = true
      · exact Or.inl hh
      · simp only [Bool.not_eq_true] at hh
        simp only [hh, and_true, not_and_or, not_lt] at hc
        omega

/-- **C33**: a run that does not raise ends in one of three ways, and says so: `has_converged` is true exactly if the
criteria were fulfilled in the last iteration and the diagnosis passed; if it gave up, more than
`n_resamples_before_giveup` acquisitions in a row were insufficient, it has not converged and there was budget left;
if it neither converged nor gave up, one of the two budgets is used up. -/
theorem C33_exit_reasons {fuel : ℕ} {g : G} {st : St G X} {e : Exit}
    (h : runLoop o mc nT nF steps fuel g = some (st, e)) (hne : ∀ x, e ≠ .raised x) :
    (st.hasConverged = true ↔ LastConverged st.trace) ∧
    (e = .gaveUp → o.nResamples < streak st.trace ∧ st.hasConverged = false ∧
      nT st.gpr < o.maxTotal ∧ nF st.gpr < o.maxFinite) ∧
    (e = .finished → st.hasConverged = false → o.maxTotal ≤ nT st.gpr ∨ o.maxFinite ≤ nF st.gpr) ∧
    (e = .finished → 0 ≤ o.nResamples → (streak st.trace : ℤ) ≤ o.nResamples) := by
  unfold runLoop at h
  have H : loop o mc nT nF steps fuel (.start g) = some (st, e) := by
    split at h
    · rename_i st' hl
      split_ifs at h with hc
      · cases h; exact absurd rfl (hne _)
      · cases h; exact hl
    · exact h
  obtain ⟨a, b, c, d⟩ := loop_exit fuel _ _ (linv_start g) H hne
  refine ⟨a.conv, b, fun h1 h2 => ?_, fun h1 h2 => ?_⟩
  · rcases c h1 with h3 | h3
    · rw [h2] at h3; cases h3
    · exact h3
  · have := d h1 (by simp [St.start])
    rwa [max_eq_right h2] at this

/-- **C76**, negation: after resuming from a checkpoint the attribute `_mc_options` does not exist, and so a run never
ends because of convergence or of an exhausted budget: it raises (or gives up). -/
theorem C76_resumed_never_finishes {fuel : ℕ} {g : G} {st : St G X} {e : Exit}
    (h : runLoop o false nT nF steps fuel g = some (st, e)) : e = .gaveUp ∨ ∃ x, e = .raised x := by
  unfold runLoop at h
  have hconv : ∀ (fuel : ℕ) (st : St G X) (r : St G X × Exit), st.hasConverged = false →
      loop o false nT nF steps fuel st = some r → r.2 = .finished → r.1.hasConverged = false := by
    intro fuel
    induction fuel with
    | zero => intro st r _ h; simp [loop] at h
    | succ n ih =>
      intro st r hs h hr
      unfold loop at h
      split_ifs at h with hc
      · rcases iterate_cases (o := o) (mc := false) (steps st.iter st.gpr) st with
          ⟨_, h2, he⟩ | ⟨_, h2, he⟩ | ⟨_, _, e, _, he⟩ | ⟨hpos, _, g, hf, hh⟩
        · rw [he] at h; cases h; cases hr
        · rw [he] at h
          have := fun a => ih _ _ a h hr
          exact this hs
        · rw [he] at h; cases h; cases hr
        · rcases hh with ⟨_, hb, he⟩ | ⟨_, _, he⟩ | ⟨_, he⟩
          · cases hb
          · rw [he] at h; cases h; cases hr
          · rw [he] at h; exact ih _ _ rfl h hr
      · cases h; exact hs
  split at h
  · rename_i st' hl
    have := hconv _ _ _ rfl hl rfl
    dsimp only at this
    rw [this] at h
    simp at h
    exact Or.inr ⟨_, h.2.symm⟩
  · rename_i r' hr'
    rw [h] at hr'
    cases e with
    | finished => exact absurd rfl (hr' st)
    | gaveUp => exact Or.inl rfl
    | raised x => exact Or.inr ⟨x, rfl⟩

end Loop

/-! ### Examples for the loop -/

section Ex

/-- Surrogate: number of points. Two points asked for per acquisition, budget of 5, up to 1 re-sampling. -/
def exO : Opts := ⟨2, 3, 5, 5, 2, 1, 1, 1⟩

/-- Acquisition of `n` points. -/
def exStep (n : ℕ) (c d : Bool) : Step ℕ ℕ := ⟨List.range n, fun g => .ok (g + n), c, d⟩

/-- Steps: one insufficient acquisition, then two points, failed diagnosis, then two more. -/
def exSteps : ℕ → ℕ → Step ℕ ℕ
  | 0, _ => exStep 0 false false
  | 1, _ => exStep 2 true false
  | 2, _ => exStep 2 false true
  | _, _ => exStep 0 false false

/-- C32: example of the hypotheses (with `I` trivially true). -/
example : (∀ i g, (((exSteps i g).cands.length : ℕ) : ℤ) ≤ exO.nAcq) ∧
    ∀ i g g', True → (exSteps i g).fit g = .ok g' → True ∧ id g' = id g + (exSteps i g).cands.length := by
  constructor
  · intro i g
    rcases i with _ | _ | _ | i <;> simp [exSteps, exStep, exO]
  · intro i g g' _ h
    rcases i with _ | _ | _ | i <;> simp_all [exSteps, exStep] <;> omega

/-- C33: the budget is used up (6 points instead of at most 5 + 2 - 1). -/
example : (runLoop exO true id id exSteps 100 2).map (fun r => (r.1.gpr, r.1.hasConverged, r.1.trace, r.2)) =
    some (6, false, [.evaluated 3 2 false false, .evaluated 2 2 true false, .insufficient], .finished) := by
  decide +kernel

/-- C33: giving up after more than one re-sampling. -/
example : (runLoop exO true id id (fun _ _ => exStep 0 true true) 100 2).map (fun r => (r.1.trace, r.2)) =
    some ([.insufficient, .insufficient], .gaveUp) := by decide +kernel

/-- C33: convergence. -/
example : (runLoop exO true id id (fun _ _ => exStep 1 true true) 100 2).map (fun r => (r.1.hasConverged, r.1.trace, r.2)) =
    some (true, [.evaluated 1 1 true true], .finished) := by decide +kernel

/-- **C76**, negation with witness: the same runs, resumed from a checkpoint, raise. -/
theorem C76_counterexample :
    (runLoop exO false id id exSteps 100 2).map (·.2) = some (.raised .attributeError) ∧
    (runLoop exO false id id (fun _ _ => exStep 1 true true) 100 2).map (·.2) = some (.raised .attributeError) := by
  decide +kernel

end Ex

example : ∃ o, construct 7 16 {} = .ok o := C68_defaults_accepted (by decide) 16

section Ex2

theorem exSteps_le : ∀ i g, (((exSteps i g).cands.length : ℕ) : ℤ) ≤ exO.nAcq := fun i g => by
  rcases i with _ | _ | _ | i <;> simp [exSteps, exStep, exO]

theorem exSteps_fit : ∀ i g g', True → (exSteps i g).fit g = .ok g' → True ∧ id g' = id g + (exSteps i g).cands.length := fun i g g' _ h => by
  rcases i with _ | _ | _ | i <;> simp_all [exSteps, exStep] <;> omega

/-- Two points, budget 5, two points per iteration: no more than four new evaluations. -/
example : ∃ r, runLoop exO true id id exSteps 100 2 = some r ∧ r.1.evals.length ≤ 4 := by
  obtain ⟨r, h, h1, -⟩ := C32_terminates_within_budget (o := exO) (mc := true) (nT := id) (nF := id) (steps := exSteps) (fun _ => True) exSteps_le exSteps_fit 2 trivial
  have := h1 (by decide)
  exact ⟨r, h 100 (by decide), by simp [exO] at this; omega⟩

example (st : St ℕ ℕ) (h : runLoop exO true id id (fun _ _ => exStep 0 true true) 100 2 = some (st, .gaveUp)) : 1 < streak st.trace ∧ st.hasConverged = false := by
  obtain ⟨-, h2, -⟩ := C33_exit_reasons h (by simp)
  obtain ⟨a, b, -⟩ := h2 rfl
  exact ⟨by simpa [exO] using a, b⟩

/-- A resumed run of the code (`mc = false`): the loop ends with the exit of a loop that gave up. -/
example (st : St ℕ ℕ) (e : Exit) (h : runLoop exO false id id exSteps 100 2 = some (st, e)) : e ≠ .finished := by
  rcases C76_resumed_never_finishes h with rfl | ⟨x, rfl⟩ <;> simp

end Ex2

end GPry.Run
