import Verif.ConvSave
import Verif.ConvMcProps

set_option linter.all false

/-!
# C169: copying and saving a convergence criterion
-/

namespace GPry.ConvSave

/-- The dictionaries hold one likelihood, `gp`; there is information on a sample only if there is an input. -/
def Inv {S : Type*} (o : Obj S) : Prop :=
  (o.input = none ∧ o.info = none) ∨
  (∃ e, o.input = some [("gp", e)] ∧ (o.info = none ∨ ∃ e', o.info = some [("gp", e')]))

theorem mark_gp (e : External) : mark "gp" [("gp", e)] = .ok [("gp", .true_)] := by
  simp [mark]

theorem deepcopy_inv {S : Type*} (o : Obj S) (h : Inv o) :
    ∃ c, deepcopy o = .ok (c, c) ∧ Inv c ∧ c.core = o.core ∧ Picklable c ∧
      c.input = o.input.map (fun _ => [("gp", .true_)]) ∧ c.info = o.info.map (fun _ => [("gp", .true_)]) := by
  obtain ⟨core, input, info⟩ := o
  rcases h with ⟨h1, h2⟩ | ⟨e, h1, h2 | ⟨e', h2⟩⟩ <;> simp only at h1 h2 <;> subst h1 h2
  · exact ⟨⟨core, none, none⟩, rfl, Or.inl ⟨rfl, rfl⟩, rfl, ⟨(by simp), (by simp)⟩, rfl, rfl⟩
  · refine ⟨⟨core, some [("gp", .true_)], none⟩, ?_, Or.inr ⟨_, rfl, Or.inl rfl⟩, rfl, ⟨(by simp), (by simp)⟩, rfl, rfl⟩
    simp [deepcopy, clean, mark_gp]
  · refine ⟨⟨core, some [("gp", .true_)], some [("gp", .true_)]⟩, ?_, Or.inr ⟨_, rfl, Or.inr ⟨_, rfl⟩⟩, rfl,
      ⟨(by simp), (by simp)⟩, rfl, rfl⟩
    simp [deepcopy, clean, mark_gp]

theorem call_inv {S I O : Type*} (step : S → I → S × O) (mcmc : S → I → Mcmc) (o : Obj S) (i : I) (h : Inv o) :
    Inv (call step mcmc o i).1 := by
  unfold call
  cases mcmc o.core i with
  | no => exact h
  | failed =>
    refine Or.inr ⟨_, rfl, ?_⟩
    rcases h with ⟨_, h2⟩ | ⟨_, _, h2⟩
    · exact Or.inl h2
    · exact h2
  | done => exact Or.inr ⟨_, rfl, Or.inr ⟨_, rfl⟩⟩

theorem call_core {S I O : Type*} (step : S → I → S × O) (mcmc : S → I → Mcmc) (o : Obj S) (i : I) :
    (call step mcmc o i).1.core = (step o.core i).1 := by
  unfold call
  cases mcmc o.core i <;> rfl

theorem run_inv {S I O : Type*} (step : S → I → S × O) (mcmc : S → I → Mcmc) : ∀ (h : List (Op I)) (o : Obj S), Inv o →
    ∃ r, run step mcmc o h = .ok r ∧ Inv r.1 ∧ r.1.core = (Conv.runCalls step o.core (calls h)).1 ∧
      r.2 = (Conv.runCalls step o.core (calls h)).2
  | [], o, hi => ⟨(o, []), rfl, hi, rfl, rfl⟩
  | .call i :: l, o, hi => by
    obtain ⟨r, h1, h2, h3, h4⟩ := run_inv step mcmc l (call step mcmc o i).1 (call_inv step mcmc o i hi)
    refine ⟨(r.1, (call step mcmc o i).2 :: r.2), ?_, h2, ?_, ?_⟩
    · simp only [run, h1]
    · rw [call_core] at h3
      simpa [calls, Conv.runCalls] using h3
    · rw [call_core] at h4
      simp only [calls, Conv.runCalls, ← h4]
      rfl
  | .save :: l, o, hi => by
    obtain ⟨c, e, hc, hk, -⟩ := deepcopy_inv o hi
    obtain ⟨r, h1, h2, h3, h4⟩ := run_inv step mcmc l c hc
    rw [hk] at h3 h4
    exact ⟨r, (by simp only [run, e]; exact h1), h2, h3, h4⟩
  | .resume :: l, o, hi => by
    obtain ⟨c, e, hc, hk, -⟩ := deepcopy_inv o hi
    obtain ⟨r, h1, h2, h3, h4⟩ := run_inv step mcmc l c hc
    rw [hk] at h3 h4
    exact ⟨r, (by simp only [run, e]; exact h1), h2, h3, h4⟩

/-- **C169**: whatever happened to a criterion before (calls with and without MCMC, failed or not, copies, continuing with a copy),
it can be copied and saved, nothing stored in the copy prevents this, and later calls, of the original or of the copy, give what
they give without copies. -/
theorem C169_saved {S I O : Type*} (step : S → I → S × O) (mcmc : S → I → Mcmc) (s : S) (before later : List (Op I)) :
    ∃ o outs orig copy, run step mcmc (new s) before = .ok (o, outs) ∧
      outs = (Conv.runCalls step s (calls before)).2 ∧
      deepcopy o = .ok (orig, copy) ∧ Picklable copy ∧
      ∀ x ∈ [o, orig, copy], ∃ x', run step mcmc x later =
        .ok (x', (Conv.runCalls step (Conv.runCalls step s (calls before)).1 (calls later)).2) := by
  obtain ⟨r, h1, h2, h3, h4⟩ := run_inv step mcmc before (new s) (Or.inl ⟨rfl, rfl⟩)
  obtain ⟨c, e, hc, hk, hp, -⟩ := deepcopy_inv r.1 h2
  refine ⟨r.1, r.2, c, c, h1, h4, e, hp, ?_⟩
  have key : ∀ x : Obj S, Inv x → x.core = r.1.core → ∃ x', run step mcmc x later =
        .ok (x', (Conv.runCalls step (Conv.runCalls step s (calls before)).1 (calls later)).2) := by
    intro x hx hxc
    obtain ⟨r', g1, -, -, g4⟩ := run_inv step mcmc later x hx
    refine ⟨r'.1, ?_⟩
    rw [g1]
    rw [hxc, h3] at g4
    exact congrArg Except.ok (Prod.ext rfl g4)
  intro x hx
  simp only [List.mem_cons, List.not_mem_nil, or_false] at hx
  rcases hx with rfl | rfl | rfl
  · exact key _ h2 rfl
  · exact key _ hc hk
  · exact key _ hc hk

/-- **C169**, negation of a part: copying (or saving) changes the original: after a call that ran MCMC, successfully or not, its
input for Cobaya has the function before the copy, and `True` after it. -/
theorem C169_original_counterexample {S I O : Type*} (step : S → I → S × O) (mcmc : S → I → Mcmc) (s : S) (before : List (Op I)) (i : I)
    (o : Obj S) (outs : List O) (hr : run step mcmc (new s) before = .ok (o, outs)) (hm : mcmc o.core i ≠ .no) :
    ∃ orig copy, deepcopy (call step mcmc o i).1 = .ok (orig, copy) ∧
      (call step mcmc o i).1.input = some [("gp", .function)] ∧ orig.input = some [("gp", .true_)] := by
  obtain ⟨r, h1, h2, -⟩ := run_inv step mcmc before (new s) (Or.inl ⟨rfl, rfl⟩)
  rw [hr] at h1
  obtain rfl : (o, outs) = r := by injection h1
  obtain ⟨c, e, -, -, -, hi, -⟩ := deepcopy_inv _ (call_inv step mcmc o i h2)
  have hin : (call step mcmc o i).1.input = some [("gp", .function)] := by
    unfold call
    cases hq : mcmc o.core i with
    | no => exact absurd hq hm
    | failed => rfl
    | done => rfl
  refine ⟨c, c, e, hin, ?_⟩
  rw [hi, hin]
  rfl

section
variable {K : Type*} [Field K] [LinearOrder K] {d : ℕ}

/-- `mcmcOf` is what the calls do: a new sample is stored exactly if MCMC ran successfully. -/
theorem mcmcOf_done (P : ConvMc.Par d K) (s : ConvMc.State d K) (c : ConvMc.Call d K) :
    (mcmcOf P s c = .done → ∃ cov coll, c.mcmc cov = some coll ∧ (ConvMc.getNew P s c).1.coll = some coll) ∧
    (mcmcOf P s c ≠ .done → (ConvMc.getNew P s c).1.coll = s.coll) := by
  obtain ⟨kl, thres, evals, nr, coll⟩ := s
  unfold mcmcOf ConvMc.getNew
  cases ha : c.acq with
  | some q => obtain ⟨X, w⟩ := q; exact ⟨(by intro h; cases h), fun _ => rfl⟩
  | none =>
    unfold ConvMc.fromMc
    cases coll with
    | none =>
      dsimp only
      unfold ConvMc.sampleMc
      have hp : ConvMc.proposal P ⟨kl, thres ++ [P.limit], evals, nr, none⟩ none =
        ConvMc.proposal P ⟨kl, thres, evals, nr, none⟩ none := rfl
      rw [hp]
      cases hm : c.mcmc (ConvMc.proposal P ⟨kl, thres, evals, nr, none⟩ none) with
      | none => exact ⟨(by intro h; cases h), fun _ => rfl⟩
      | some coll => exact ⟨fun _ => ⟨_, coll, hm, rfl⟩, fun h => absurd rfl h⟩
    | some coll0 =>
      dsimp only
      have ht : ConvMc.tryReuse P ⟨kl, thres ++ [P.limit], evals, nr, some coll0⟩ c coll0 =
        ConvMc.tryReuse P ⟨kl, thres, evals, nr, some coll0⟩ c coll0 := rfl
      rw [ht]
      cases hq : ConvMc.tryReuse P ⟨kl, thres, evals, nr, some coll0⟩ c coll0 with
      | error e => exact ⟨(by intro h; cases h), fun _ => rfl⟩
      | ok q =>
        obtain ⟨b, m⟩ := q
        cases b with
        | true => exact ⟨(by intro h; cases h), fun _ => rfl⟩
        | false =>
          dsimp only
          unfold ConvMc.sampleMc
          have hp : ConvMc.proposal P ⟨kl, thres ++ [P.limit], evals, nr, some coll0⟩ (some m.cov) =
            ConvMc.proposal P ⟨kl, thres, evals, nr, some coll0⟩ (some m.cov) := rfl
          rw [hp]
          cases hm : c.mcmc (ConvMc.proposal P ⟨kl, thres, evals, nr, some coll0⟩ (some m.cov)) with
          | none => exact ⟨(by intro h; cases h), fun _ => rfl⟩
          | some coll => exact ⟨fun _ => ⟨_, coll, hm, rfl⟩, fun h => absurd rfl h⟩

/-- **C169** for `GaussianKL`: the decisions of a history with saved, restored and continued criteria are those of the calls
alone. -/
theorem C169_gaussian (P : ConvMc.Par d K) (h : List (Op (ConvMc.Call d K))) :
    ∃ o, gaussian P h = .ok (o, (Conv.runCalls (ConvMc.step P) ConvMc.State.init (calls h)).2) ∧
      o.core = ConvMc.after P ConvMc.State.init (calls h) := by
  obtain ⟨r, h1, -, h3, h4⟩ := run_inv (ConvMc.step P) (mcmcOf P) h (new ConvMc.State.init) (Or.inl ⟨rfl, rfl⟩)
  exact ⟨r.1, (by unfold gaussian; rw [h1]; exact congrArg Except.ok (Prod.ext rfl h4)), h3⟩

end

/-- Two calls with MCMC, one that fails, saved in between; then continued with the copy. -/
example : ∃ (o : Obj ℕ) (outs : List ℕ), run (fun s (i : ℕ × Mcmc) => (s + i.1, s)) (fun _ i => i.2) (new 5)
      [.call (1, .done), .save, .call (2, .failed), .resume, .call (3, .no)] = .ok (o, outs) ∧
    outs = [5, 6, 8] ∧ o.input = some [("gp", .true_)] ∧ o.core = 11 :=
  ⟨_, _, rfl, rfl, rfl, rfl⟩

/-- Without a run of MCMC nothing is changed; with one, the input is. -/
example : deepcopy (call (fun (s : ℕ) (i : Mcmc) => (s + 1, ())) (fun _ i => i) (new 0) .failed).1 =
    .ok (⟨1, some [("gp", .true_)], none⟩, ⟨1, some [("gp", .true_)], none⟩) := rfl

/-- A dictionary with another likelihood would raise: the names must agree. -/
example : deepcopy (⟨0, some [("gp", .function)], some [("other", .function)]⟩ : Obj ℕ) = .error .key := rfl

/-- The first call of `GaussianKL` without a sample of the acquisition runs MCMC. -/
example (P : ConvMc.Par 2 ℚ) (coll : ConvMc.Coll 2 ℚ) :
    mcmcOf P ConvMc.State.init ⟨none, fun _ => .fin 0, fun _ => some coll, 3, 3⟩ = .done := rfl

end GPry.ConvSave
