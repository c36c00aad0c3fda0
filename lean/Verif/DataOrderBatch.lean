import Verif.BatchProps

set_option linter.all false

/-!
# The order of the training points in `BatchOptimizer` (C157)

The first of the runs of the optimiser starts from the last training point within the bounds (gp_acquisition.py:343-349). So the batch is not
independent of the order of the training points; it depends on it through this point only.
-/

namespace GPry.Batch

open GPry Spmd

section
variable {S P B K : Type} [LinearOrder K] [Neg K]

/-- `R`: surrogates that an engine cannot tell apart, with the same last training point within the bounds `b`. -/
structure Alike (c : Cfg S P B K) (b : B) (R : S → S → Prop) : Prop where
  acq : ∀ s s', R s s' → ∀ x, c.env.acq s' x = c.env.acq s x
  loc : ∀ s s', R s s' → ∀ x, c.env.loc s' x b = c.env.loc s x b
  start : ∀ s s', R s s' → (c.env.train s').reverse.find? (c.env.isIn b) = (c.env.train s).reverse.find? (c.env.isIn b)
  predict : ∀ s s', R s s' → ∀ x, c.predict s' x = c.predict s x
  append : ∀ s s', R s s' → ∀ x, match c.append s x (c.predict s x), c.append s' x (c.predict s x) with
    | .ok t, .ok t' => R t t'
    | .error e, .error e' => e = e'
    | _, _ => False

variable {c : Cfg S P B K} {b : B} {R : S → S → Prop}

theorem optimise_alike (h : Alike c b R) {s s' : S} (hs : R s s') {obj obj' : Option S} (ho : obj = none ∧ obj' = none ∨ obj = some s ∧ obj' = some s')
    (i : ℕ) (props : List P) : (optimise c.env obj s i (some b) props).1 = some s ∧ (optimise c.env obj' s' i (some b) props).1 = some s' ∧
      (optimise c.env obj' s' i (some b) props).2 = (optimise c.env obj s i (some b) props).2 := by
  have e1 : obj.getD s = s := by rcases ho with ⟨h1, -⟩ | ⟨h1, -⟩ <;> simp [h1]
  have e2 : obj'.getD s' = s' := by rcases ho with ⟨-, h1⟩ | ⟨-, h1⟩ <;> simp [h1]
  have e3 : c.env.acq s' = c.env.acq s := funext (h.acq s s' hs)
  unfold optimise
  simp only [e1, e2, e3, h.start s s' hs, Option.getD_some, h.loc s s' hs, and_self]

theorem rankLoop_alike (h : Alike c b R) {s s' : S} (hs : R s s') (props : ℕ → List P) : ∀ (is : List ℕ) {obj obj' : Option S},
    (obj = none ∧ obj' = none ∨ obj = some s ∧ obj' = some s') → (rankLoop c.env s' b props obj' is).2 = (rankLoop c.env s b props obj is).2
  | [], _, _, _ => rfl
  | i :: is, obj, obj', ho => by
    obtain ⟨h1, h2, h3⟩ := optimise_alike h hs ho i (props i)
    simp only [rankLoop]
    revert h1 h2 h3
    rcases optimise c.env obj s i (some b) (props i) with ⟨o1, r⟩
    rcases optimise c.env obj' s' i (some b) (props i) with ⟨o2, r'⟩
    rintro rfl rfl rfl
    cases r' with
    | error e => rfl
    | ok q =>
      have hr := rankLoop_alike h hs props is (.inr ⟨rfl, rfl⟩ : some s = none ∧ some s' = none ∨ some s = some s ∧ some s' = some s')
      dsimp only
      revert hr
      rcases rankLoop c.env s b props (some s) is with ⟨a, r⟩
      rcases rankLoop c.env s' b props (some s') is with ⟨a', r'⟩
      rintro rfl
      cases r' <;> rfl

/-- Two results that agree but for surrogates that are alike. -/
def OutAlike (R : S → S → Prop) {α : Type} : Except Err (S × α) → Except Err (S × α) → Prop
  | .ok r, .ok r' => R r.1 r'.1 ∧ r'.2 = r.2
  | .error e, .error e' => e' = e
  | _, _ => False

theorem choose_alike (h : Alike c b R) {s s' : S} (hs : R s s') (last : Bool) (cands : List (P × Ext K)) :
    OutAlike R (choose c last s cands) (choose c last s' cands) := by
  unfold choose
  cases pick (cands.map Prod.snd) with
  | none => rfl
  | some k =>
    dsimp only
    cases cands[k]? with
    | none => rfl
    | some q =>
      obtain ⟨x, v⟩ := q
      dsimp only
      rw [h.predict s s' hs]
      cases last
      · have ha := h.append s s' hs x
        simp only [Bool.false_eq_true, if_false]
        revert ha
        cases c.append s x (c.predict s x) <;> cases c.append s' x (c.predict s x) <;> intro ha
        · exact ha.symm
        · exact ha.elim
        · exact ha.elim
        · exact ⟨ha, rfl⟩
      · exact ⟨hs, rfl⟩

theorem serial_alike (h : Alike c b R) (n : ℕ) : ∀ (k : ℕ) {s s' : S}, R s s' → OutAlike R (serial c b n k s) (serial c b n k s')
  | 0, _, _, hs => ⟨hs, rfl⟩
  | k + 1, s, s', hs => by
    simp only [serial]
    rw [rankLoop_alike h hs (c.props (n - (k + 1))) (List.range c.nRestarts) (.inl ⟨rfl, rfl⟩ : (none : Option S) = none ∧ (none : Option S) = none ∨ _)]
    cases (rankLoop c.env s b (c.props (n - (k + 1))) none (List.range c.nRestarts)).2 with
    | error e => rfl
    | ok cands =>
      dsimp only
      have hc := choose_alike h hs (k == 0) cands
      revert hc
      rcases choose c (k == 0) s cands with e | ⟨t, o⟩ <;> rcases choose c (k == 0) s' cands with e' | ⟨t', o'⟩ <;> intro hc
      · exact hc
      · exact hc.elim
      · exact hc.elim
      · obtain ⟨h1, h2⟩ := hc
        dsimp only at h1 h2 ⊢
        subst h2
        have hr := serial_alike h n k h1
        revert hr
        rcases serial c b n k t with e | ⟨u, os⟩ <;> rcases serial c b n k t' with e' | ⟨u', os'⟩ <;> intro hr
        · exact hr
        · exact hr.elim
        · exact hr.elim
        · exact ⟨hr.1, congrArg (o' :: ·) hr.2⟩

/-- **C157** for `BatchOptimizer`, gp_acquisition.py:270-500: with the training points in another order the same batch is proposed, with the same lies and
the same values of the acquisition function, or the same exception is raised, in a single process and, if it succeeds, with any number of them -- if acquisition function,
optimiser and predictions do not depend on the order, and the last training point within the bounds stays the same (before and after lies are appended). -/
theorem C157_batch_partial (c : Cfg S P B K) (bounds : Option B) (R : S → S → Prop) (h : Alike c (bounds.getD c.env.prior) R) (n : ℤ) {s s' : S} (hs : R s s') :
    OutAlike R (multiAdd c bounds n s) (multiAdd c bounds n s') ∧
      ∀ p, 0 < p → ∀ w outs, multiAdd c bounds n s = .ok (w, outs) →
        Runs (fun r : Fin p => multiAddPar c bounds n s p r.val) (fun _ => .ok outs) ∧ Runs (fun r : Fin p => multiAddPar c bounds n s' p r.val) (fun _ => .ok outs) := by
  have h0 : OutAlike R (multiAdd c bounds n s) (multiAdd c bounds n s') := by
    unfold multiAdd
    split_ifs
    · rfl
    · exact serial_alike h _ _ hs
  refine ⟨h0, fun p hp w outs hw => ⟨C58_parallel c bounds n _ _ _ p hp hw, ?_⟩⟩
  rw [hw] at h0
  cases h1 : multiAdd c bounds n s' with
  | error e => rw [h1] at h0; exact h0.elim
  | ok r =>
    obtain ⟨w', outs'⟩ := r
    rw [h1] at h0
    obtain ⟨-, h2⟩ := h0
    dsimp only at h2
    subst h2
    exact C58_parallel c bounds n _ _ _ p hp h1

end

/-- **C157** is false for `BatchOptimizer`: the acquisition function `exEnv.acq` depends on the number of times that a point is in the training set, not on
the order; `[0, 5]` and `[5, 0]` are the same points, but the optimiser starts from the last of them. -/
theorem C157_batch_counterexample :
    (∀ g g' : List ℤ, g.Perm g' → ∀ x, exCfg.env.acq g x = exCfg.env.acq g' x ∧ exCfg.predict g x = exCfg.predict g' x ∧
      ∀ b, exCfg.env.loc g x b = exCfg.env.loc g' x b) ∧
    multiAdd { exCfg with nRestarts := 1 } none 1 [0, 5] = .ok ([0, 5], [(5, .fin 5, .fin (-3))]) ∧
    multiAdd { exCfg with nRestarts := 1 } none 1 [5, 0] = .ok ([5, 0], [(1, .fin 1, .fin (-2))]) := by
  refine ⟨fun g g' h x => ⟨?_, rfl, fun b => ?_⟩, by decide +kernel, by decide +kernel⟩
  · show Ext.fin _ = Ext.fin _
    rw [h.count_eq]
  · show (if _ then _ else _) = (if _ then _ else _)
    rw [h.count_eq, h.count_eq]

/-! ## Examples -/

/-- The same points, with the same last one within the bounds of the prior. -/
def exR (g g' : List ℤ) : Prop := g.Perm g' ∧ g'.reverse.find? (exEnv.isIn (-10, 10)) = g.reverse.find? (exEnv.isIn (-10, 10))

theorem exAlike : Alike exCfg (-10, 10) exR where
  acq s s' h x := (C157_batch_counterexample.1 s s' h.1 x).1.symm
  loc s s' h x := ((C157_batch_counterexample.1 s s' h.1 x).2.2 _).symm
  start s s' h := h.2
  predict s s' h x := rfl
  append s s' h x := by
    refine ⟨h.1.append_right _, ?_⟩
    have := h.2
    simp only [List.reverse_append, List.reverse_cons, List.reverse_nil, List.nil_append, List.cons_append, List.find?_cons]
    rw [this]

example : multiAdd exCfg none 3 [1, 0, 20] = .ok ([1, 0, 20, 3, 3], [(3, .fin 3, .fin 0), (3, .fin 3, .fin (-1)), (4, .fin 4, .fin (-1))]) := by decide +kernel

example (p : ℕ) (hp : 0 < p) : Runs (fun r : Fin p => multiAddPar exCfg none 3 [20, 0, 1] p r.val) fun _ => .ok [(3, .fin 3, .fin 0), (3, .fin 3, .fin (-1)), (4, .fin 4, .fin (-1))] :=
  ((C157_batch_partial exCfg none exR exAlike 3 (s := [0, 1, 20]) (s' := [20, 0, 1]) ⟨by decide, by decide +kernel⟩).2 p hp _ _ exAdd).2

end GPry.Batch
