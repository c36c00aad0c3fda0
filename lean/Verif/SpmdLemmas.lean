import Verif.Spmd

set_option linter.all false

namespace GPry.Spmd
open Prog
variable {E A B : Type} {p : ℕ}

theorem Step.det {f g h : Fin p → Prog E A} (hp : 0 < p) (h1 : Step f g) (h2 : Step f h) : g = h := by
  have hr : Fin p := ⟨0, hp⟩
  cases h1 with
  | barrier =>
    generalize hf : (fun r => Prog.barrier (g r)) = f at h2
    cases h2 with
    | barrier =>
      funext r; have := congrFun hf r; simpa using this
    | bcast root m k' => have := congrFun hf hr; simp at this
    | gather m k' => have := congrFun hf hr; simp at this
    | allgather m k' => have := congrFun hf hr; simp at this
  | @bcast α root m k =>
    generalize hf : (fun r => Prog.bcast root.val (m r) (k r)) = f at h2
    cases h2 with
    | barrier k' => have := congrFun hf hr; simp at this
    | @bcast β root' m' k' =>
      have h0 := congrFun hf hr
      simp only [Prog.bcast.injEq] at h0
      obtain ⟨rfl, h1, -, -⟩ := h0
      have : root = root' := Fin.ext h1
      subst this
      have hh : ∀ r, m r = m' r ∧ k r = k' r := by
        intro r
        have := congrFun hf r
        simpa using this
      funext r
      rw [(hh r).2, (hh root).1]
    | gather m k' => have := congrFun hf hr; simp at this
    | allgather m k' => have := congrFun hf hr; simp at this
  | @gather α m k =>
    generalize hf : (fun r => Prog.gather (m r) (k r)) = f at h2
    cases h2 with
    | barrier k' => have := congrFun hf hr; simp at this
    | bcast root m k' => have := congrFun hf hr; simp at this
    | @gather β m' k' =>
      have h0 := congrFun hf hr
      simp only [Prog.gather.injEq] at h0
      obtain ⟨rfl, -, -⟩ := h0
      have hh : ∀ r, m r = m' r ∧ k r = k' r := by
        intro r
        have := congrFun hf r
        simpa using this
      have hm : m = m' := funext fun r => (hh r).1
      subst hm
      funext r
      rw [(hh r).2]
    | allgather m k' => have := congrFun hf hr; simp at this
  | @allgather α m k =>
    generalize hf : (fun r => Prog.allgather (m r) (k r)) = f at h2
    cases h2 with
    | barrier k' => have := congrFun hf hr; simp at this
    | bcast root m k' => have := congrFun hf hr; simp at this
    | gather m k' => have := congrFun hf hr; simp at this
    | @allgather β m' k' =>
      have h0 := congrFun hf hr
      simp only [Prog.allgather.injEq] at h0
      obtain ⟨rfl, -, -⟩ := h0
      have hh : ∀ r, m r = m' r ∧ k r = k' r := by
        intro r
        have := congrFun hf r
        simpa using this
      have hm : m = m' := funext fun r => (hh r).1
      subst hm
      funext r
      rw [(hh r).2]

theorem no_step_fin (hp : 0 < p) {f g : Fin p → Prog E A} (r : Fin p) (x : Except E A) (hf : f r = Prog.fin x) :
    ¬ Step f g := by
  intro h
  cases h <;> cases x <;> simp [Prog.fin] at hf

theorem not_step_of_ended {f g : Fin p → Prog E A} (r : Fin p) (hf : (∃ a, f r = .ret a) ∨ ∃ e, f r = .raise e) :
    ¬ Step f g := by
  intro h
  cases h <;> simp at hf

theorem reach_total (hp : 0 < p) {f g h : Fin p → Prog E A} (h1 : Relation.ReflTransGen Step f g)
    (h2 : Relation.ReflTransGen Step f h) :
    Relation.ReflTransGen Step g h ∨ Relation.ReflTransGen Step h g :=
  Relation.ReflTransGen.total_of_right_unique (fun _ _ _ a b => Step.det hp a b) h1 h2

theorem fin_inj {x y : Except E A} (h : Prog.fin x = Prog.fin y) : x = y := by
  cases x <;> cases y <;> simp_all [Prog.fin]

theorem reach_fin (hp : 0 < p) {res : Fin p → Except E A} {g : Fin p → Prog E A}
    (h : Relation.ReflTransGen Step (fun r => Prog.fin (res r)) g) : g = fun r => Prog.fin (res r) := by
  rcases Relation.ReflTransGen.cases_head h with h | ⟨c, hc, -⟩
  · exact h.symm
  · exact absurd hc (no_step_fin hp ⟨0, hp⟩ (res ⟨0, hp⟩) rfl)

/-- The result does not depend on anything else. -/
theorem Runs.det (hp : 0 < p) {f : Fin p → Prog E A} {r1 r2 : Fin p → Except E A} (h1 : Runs f r1) (h2 : Runs f r2) :
    r1 = r2 := by
  rcases reach_total hp h1 h2 with h | h
  · have := reach_fin hp h
    funext r; exact (fin_inj (congrFun this r)).symm
  · have := reach_fin hp h
    funext r; exact fin_inj (congrFun this r)

/-- If all the processes end, there is no deadlock. -/
theorem Runs.not_deadlocks (hp : 0 < p) {f : Fin p → Prog E A} {res : Fin p → Except E A} (h : Runs f res) :
    ¬ Deadlocks f := by
  rintro ⟨g, hg, hn, hs⟩
  rcases reach_total hp h hg with h | h
  · exact hn _ (reach_fin hp h)
  · rcases Relation.ReflTransGen.cases_head h with h | ⟨c, hc, -⟩
    · exact hn _ h
    · exact hs _ hc

/-- There are no infinite executions. -/
theorem runs_or_deadlocks (hp : 0 < p) (f : Fin p → Prog E A) : (∃ res, Runs f res) ∨ Deadlocks f := by
  obtain ⟨q, hq⟩ : ∃ q, q = f ⟨0, hp⟩ := ⟨_, rfl⟩
  induction q generalizing f with
  | ret a =>
    by_cases h : ∃ res : Fin p → Except E A, f = fun r => Prog.fin (res r)
    · obtain ⟨res, rfl⟩ := h; exact .inl ⟨res, .refl⟩
    · exact .inr ⟨f, .refl, by simpa using h, fun g => not_step_of_ended ⟨0, hp⟩ (.inl ⟨a, hq.symm⟩)⟩
  | raise a =>
    by_cases h : ∃ res : Fin p → Except E A, f = fun r => Prog.fin (res r)
    · obtain ⟨res, rfl⟩ := h; exact .inl ⟨res, .refl⟩
    · exact .inr ⟨f, .refl, by simpa using h, fun g => not_step_of_ended ⟨0, hp⟩ (.inr ⟨a, hq.symm⟩)⟩
  | barrier k ih =>
    by_cases h : ∃ g, Step f g
    · obtain ⟨g, hg⟩ := h
      have h0 : g ⟨0, hp⟩ = k := by
        cases hg <;> simp_all
      rcases ih g h0.symm with ⟨res, hr⟩ | ⟨g', h1, h2⟩
      · exact .inl ⟨res, .head hg hr⟩
      · exact .inr ⟨g', .head hg h1, h2⟩
    · refine .inr ⟨f, .refl, ?_, by simpa using h⟩
      intro res hf
      have := congrFun hf ⟨0, hp⟩
      rw [← hq] at this
      cases hx : res ⟨0, hp⟩ <;> rw [hx] at this <;> simp [Prog.fin] at this
  | @bcast α root m k ih =>
    by_cases h : ∃ g, Step f g
    · obtain ⟨g, hg⟩ := h
      have h0 : ∃ x, g ⟨0, hp⟩ = k x := by
        cases hg with
        | bcast root' m' k' =>
          simp only [Prog.bcast.injEq] at hq
          obtain ⟨rfl, -, -, hk⟩ := hq
          rw [heq_eq_eq] at hk
          exact ⟨_, by rw [hk]⟩
        | barrier => simp at hq
        | gather => simp at hq
        | allgather => simp at hq
      obtain ⟨x, hx⟩ := h0
      rcases ih x g hx.symm with ⟨res, hr⟩ | ⟨g', h1, h2⟩
      · exact .inl ⟨res, .head hg hr⟩
      · exact .inr ⟨g', .head hg h1, h2⟩
    · refine .inr ⟨f, .refl, ?_, by simpa using h⟩
      intro res hf
      have := congrFun hf ⟨0, hp⟩
      rw [← hq] at this
      cases hx : res ⟨0, hp⟩ <;> rw [hx] at this <;> simp [Prog.fin] at this
  | @gather α m k ih =>
    by_cases h : ∃ g, Step f g
    · obtain ⟨g, hg⟩ := h
      have h0 : ∃ x, g ⟨0, hp⟩ = k x := by
        cases hg with
        | gather m' k' =>
          simp only [Prog.gather.injEq] at hq
          obtain ⟨rfl, -, hk⟩ := hq
          rw [heq_eq_eq] at hk
          exact ⟨_, by rw [hk]⟩
        | barrier => simp at hq
        | bcast => simp at hq
        | allgather => simp at hq
      obtain ⟨x, hx⟩ := h0
      rcases ih x g hx.symm with ⟨res, hr⟩ | ⟨g', h1, h2⟩
      · exact .inl ⟨res, .head hg hr⟩
      · exact .inr ⟨g', .head hg h1, h2⟩
    · refine .inr ⟨f, .refl, ?_, by simpa using h⟩
      intro res hf
      have := congrFun hf ⟨0, hp⟩
      rw [← hq] at this
      cases hx : res ⟨0, hp⟩ <;> rw [hx] at this <;> simp [Prog.fin] at this
  | @allgather α m k ih =>
    by_cases h : ∃ g, Step f g
    · obtain ⟨g, hg⟩ := h
      have h0 : ∃ x, g ⟨0, hp⟩ = k x := by
        cases hg with
        | allgather m' k' =>
          simp only [Prog.allgather.injEq] at hq
          obtain ⟨rfl, -, hk⟩ := hq
          rw [heq_eq_eq] at hk
          exact ⟨_, by rw [hk]⟩
        | barrier => simp at hq
        | gather => simp at hq
        | bcast => simp at hq
      obtain ⟨x, hx⟩ := h0
      rcases ih x g hx.symm with ⟨res, hr⟩ | ⟨g', h1, h2⟩
      · exact .inl ⟨res, .head hg hr⟩
      · exact .inr ⟨g', .head hg h1, h2⟩
    · refine .inr ⟨f, .refl, ?_, by simpa using h⟩
      intro res hf
      have := congrFun hf ⟨0, hp⟩
      rw [← hq] at this
      cases hx : res ⟨0, hp⟩ <;> rw [hx] at this <;> simp [Prog.fin] at this

/-! ## Composition -/

theorem Step.cont {f g : Fin p → Prog E A} (k : Fin p → Except E A → Prog E B) (h : Step f g) :
    Step (fun r => Prog.cont (k r) (f r)) (fun r => Prog.cont (k r) (g r)) := by
  cases h with
  | barrier q => exact Step.barrier _
  | bcast root m q => exact Step.bcast root m fun r x => Prog.cont (k r) (q r x)
  | gather m q => exact Step.gather m fun r x => Prog.cont (k r) (q r x)
  | allgather m q => exact Step.allgather m fun r x => Prog.cont (k r) (q r x)

theorem reach_cont {f g : Fin p → Prog E A} (k : Fin p → Except E A → Prog E B) (h : Relation.ReflTransGen Step f g) :
    Relation.ReflTransGen Step (fun r => Prog.cont (k r) (f r)) (fun r => Prog.cont (k r) (g r)) := by
  induction h with
  | refl => exact .refl
  | tail _ hs ih => exact ih.tail (hs.cont k)

theorem cont_fin (k : Except E A → Prog E B) (x : Except E A) : Prog.cont k (Prog.fin x) = k x := by
  cases x <;> rfl

theorem Runs.reach_cont {f : Fin p → Prog E A} {res : Fin p → Except E A} (h : Runs f res)
    (k : Fin p → Except E A → Prog E B) :
    Relation.ReflTransGen Step (fun r => Prog.cont (k r) (f r)) (fun r => k r (res r)) := by
  have := Spmd.reach_cont k h
  simpa only [cont_fin] using this

theorem Runs.cont {f : Fin p → Prog E A} {res : Fin p → Except E A} (h : Runs f res)
    {k : Fin p → Except E A → Prog E B} {res' : Fin p → Except E B} (h' : Runs (fun r => k r (res r)) res') :
    Runs (fun r => Prog.cont (k r) (f r)) res' := (h.reach_cont k).trans h'

/-- `f` returns `a r` in process `r`, then `k`. -/
theorem Runs.bind {f : Fin p → Prog E A} {a : Fin p → A} (h : Runs f fun r => .ok (a r))
    {k : Fin p → A → Prog E B} {res' : Fin p → Except E B} (h' : Runs (fun r => k r (a r)) res') :
    Runs (fun r => f r >>= k r) res' := h.cont h'

theorem Runs.bind_error {f : Fin p → Prog E A} {e : Fin p → E} (h : Runs f fun r => .error (e r))
    (k : Fin p → A → Prog E B) : Runs (fun r => f r >>= k r) fun r => .error (e r) :=
  h.cont (k := fun r => fun | .ok a => k r a | .error e => .raise e) Relation.ReflTransGen.refl

theorem Deadlocks.of_reach {f g : Fin p → Prog E A} (h : Relation.ReflTransGen Step f g) (hd : Deadlocks g) :
    Deadlocks f := by
  obtain ⟨g', h1, h2⟩ := hd
  exact ⟨g', h.trans h1, h2⟩

theorem Runs.bind_deadlocks {f : Fin p → Prog E A} {a : Fin p → A} (h : Runs f fun r => .ok (a r))
    {k : Fin p → A → Prog E B} (h' : Deadlocks (fun r => k r (a r))) :
    Deadlocks (fun r => f r >>= k r) :=
  .of_reach (h.reach_cont _) h'

theorem Runs.pure (a : Fin p → A) : Runs (fun r => (Pure.pure (a r) : Prog E A)) fun r => .ok (a r) := .refl

theorem Runs.ret (a : Fin p → A) : Runs (fun r => (Prog.ret (a r) : Prog E A)) fun r => .ok (a r) := .refl

theorem Runs.raise (e : Fin p → E) : Runs (fun r => (Prog.raise (e r) : Prog E A)) fun r => .error (e r) := .refl

theorem Runs.fin (x : Fin p → Except E A) : Runs (fun r => Prog.fin (x r)) x := .refl

theorem runs_sync : Runs (fun _ : Fin p => (Prog.sync : Prog E Unit)) fun _ => .ok () :=
  .single (Step.barrier _)

theorem runs_share {α : Type} (root : Fin p) (m : Fin p → α) :
    Runs (fun r : Fin p => (Prog.share root.val (m r) : Prog E α)) fun _ => .ok (m root) :=
  .single (Step.bcast root m fun _ => Prog.ret)

theorem runs_collect {α : Type} (m : Fin p → α) :
    Runs (fun r : Fin p => (Prog.collect (m r) : Prog E _)) fun r =>
      .ok (if r.val = 0 then some (List.ofFn m) else none) :=
  .single (Step.gather m fun _ => Prog.ret)

theorem runs_collectAll {α : Type} (m : Fin p → α) :
    Runs (fun r : Fin p => (Prog.collectAll (m r) : Prog E _)) fun r => .ok (List.ofFn m) :=
  .single (Step.allgather m fun _ => Prog.ret)

/-- A process that has ended, with another that waits in a collective call: deadlock. -/
theorem deadlocks_of_ended {f : Fin p → Prog E A} (r s : Fin p) (x : Except E A) (hr : f r = Prog.fin x)
    (hs : ∀ y, f s ≠ Prog.fin y) : Deadlocks f :=
  ⟨f, .refl, fun res h => hs (res s) (congrFun h s), fun g => not_step_of_ended r (by
    cases x
    · exact .inr ⟨_, hr⟩
    · exact .inl ⟨_, hr⟩)⟩

/-- The kind of call in which a program waits. -/
inductive Kind | ended | barrier | bcast | gather | allgather
  deriving DecidableEq

def Prog.kind : Prog E A → Kind
  | .ret _ => .ended
  | .raise _ => .ended
  | .barrier _ => .barrier
  | .bcast _ _ _ => .bcast
  | .gather _ _ => .gather
  | .allgather _ _ => .allgather

/-- Two processes in different kinds of calls: deadlock. -/
theorem deadlocks_of_kinds {f : Fin p → Prog E A} (r s : Fin p) (h : (f r).kind ≠ (f s).kind) : Deadlocks f := by
  refine ⟨f, .refl, ?_, ?_⟩
  · intro res hf
    apply h
    have hk : ∀ x : Except E A, (Prog.fin x).kind = .ended := by intro x; cases x <;> rfl
    rw [hf]
    simp only [hk]
  · intro g hg
    cases hg <;> exact h rfl

end GPry.Spmd
