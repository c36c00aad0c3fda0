import Verif.SpmdInit
import Verif.RunProps2

set_option linter.all false

/-!
# A whole run in all the processes, with the modelled regressor

The initial training (`initialMPI`) followed by the loop (`runMPI`), in which the surrogate is the model of
`gpry/gpr.py` (`Verif/Gpr.lean`).  Nothing is assumed about whether the true posterior or the fit raise: the theorems
speak about the runs that return.
-/

namespace GPry.Spmd
open Prog

/-! ## Processes that raise -/

section Lemmas
variable {E A B : Type} {p : ℕ}

/-- The processes reach a point at which one of them has raised. -/
def Fails (f : Fin p → Prog E A) : Prop :=
  ∃ g r e, Relation.ReflTransGen Step f g ∧ g r = .raise e

theorem Fails.not_runs (hp : 0 < p) {f : Fin p → Prog E A} (h : Fails f) {a : Fin p → A}
    (hr : Runs f fun r => .ok (a r)) : False := by
  obtain ⟨g, r, e, hg, he⟩ := h
  rcases reach_total hp hr hg with h | h
  · have := reach_fin hp h
    rw [this] at he
    simp [Prog.fin] at he
  · rcases Relation.ReflTransGen.cases_head h with h | ⟨c, hc, -⟩
    · rw [h] at he; simp [Prog.fin] at he
    · exact not_step_of_ended r (.inr ⟨e, he⟩) hc

theorem Fails.of_reach {f g : Fin p → Prog E A} (h : Relation.ReflTransGen Step f g) (hf : Fails g) : Fails f := by
  obtain ⟨g', r, e, h1, h2⟩ := hf
  exact ⟨g', r, e, h.trans h1, h2⟩

theorem Fails.bind {f : Fin p → Prog E A} (h : Fails f) (k : Fin p → A → Prog E B) : Fails fun r => f r >>= k r := by
  obtain ⟨g, r, e, hg, he⟩ := h
  refine ⟨_, r, e, reach_cont (fun r => fun | .ok a => k r a | .error e => .raise e) hg, ?_⟩
  simp only [he]
  rfl

theorem Runs.bind_reach {f : Fin p → Prog E A} {a : Fin p → A} (h : Runs f fun r => .ok (a r))
    (k : Fin p → A → Prog E B) : Relation.ReflTransGen Step (fun r => f r >>= k r) fun r => k r (a r) := h.reach_cont _

theorem Runs.bind_fails {f : Fin p → Prog E A} {a : Fin p → A} (h : Runs f fun r => .ok (a r))
    {k : Fin p → A → Prog E B} (h' : Fails fun r => k r (a r)) : Fails fun r => f r >>= k r :=
  .of_reach (h.reach_cont _) h'

theorem fails_raise {f : Fin p → Prog E A} (r : Fin p) (e : E) (h : f r = .raise e) : Fails f := ⟨f, r, e, .refl, h⟩

/-- Everything that the program can return satisfies `P`. -/
def AllRet (P : A → Prop) : Prog E A → Prop
  | .ret a => P a
  | .raise _ => True
  | .barrier k => AllRet P k
  | .bcast _ _ k => ∀ x, AllRet P (k x)
  | .gather _ k => ∀ x, AllRet P (k x)
  | .allgather _ k => ∀ x, AllRet P (k x)

theorem AllRet.step {P : A → Prop} {f g : Fin p → Prog E A} (h : Step f g) (r : Fin p) (hf : AllRet P (f r)) :
    AllRet P (g r) := by
  cases h with
  | barrier => exact hf
  | bcast root m k => exact hf _
  | gather m k => exact hf _
  | allgather m k => exact hf _

theorem AllRet.runs {P : A → Prop} {f : Fin p → Prog E A} {res : Fin p → Except E A} (h : Runs f res) {r : Fin p}
    (hf : AllRet P (f r)) {a : A} (ha : res r = .ok a) : P a := by
  have : ∀ g, Relation.ReflTransGen Step f g → AllRet P (g r) := by
    intro g hg
    induction hg with
    | refl => exact hf
    | tail _ hs ih => exact ih.step hs r
  have h1 := this _ h
  simp only [ha, Prog.fin] at h1
  exact h1

theorem AllRet.cont {P : B → Prop} {k : Except E A → Prog E B} (hk : ∀ x, AllRet P (k x)) :
    ∀ q : Prog E A, AllRet P (Prog.cont k q)
  | .ret a => hk _
  | .raise e => hk _
  | .barrier q => AllRet.cont hk q
  | .bcast _ _ q => fun x => AllRet.cont hk (q x)
  | .gather _ q => fun x => AllRet.cont hk (q x)
  | .allgather _ q => fun x => AllRet.cont hk (q x)

theorem AllRet.bind {P : B → Prop} (q : Prog E A) {k : A → Prog E B} (hk : ∀ a, AllRet P (k a)) :
    AllRet P (q >>= k) :=
  AllRet.cont (k := fun | .ok a => k a | .error e => .raise e) (by rintro (e | a); exacts [trivial, hk a]) q

end Lemmas

/-! ## The loop -/

section Loop
variable {p : ℕ} {G X Y V : Type} [LinearOrder V] [OrderBot V]

/-- The components of the run that are not modelled (acquisition, callback, convergence criteria, sampler) end without
an exception in all the processes, and the acquisition engine returns the same candidates in all of them. -/
structure Others (p : ℕ) (w : World G X Y V) (cands : ℕ → G → List X) (outcomes : ℕ → G → List (Option Bool)) :
    Prop where
  acquire : ∀ i g, Runs (fun r : Fin p => w.acquire i r g) fun _ => .ok (cands i g)
  callback : ∀ i g, Runs (fun r : Fin p => (if w.callbackAware = true ∨ r.val = 0 then w.callback i r g else pure ()))
    fun _ => .ok ()
  crits : ∀ i g, List.Forall₂ (Agreed p) (w.crits i g) (outcomes i g)
  sample : ∀ i g, Runs (fun r : Fin p => w.sample i r g) fun _ => .ok ()

/-- The same components with a true posterior and a fit that do not raise: for reusing lemmas. -/
theorem Others.ok {w : World G X Y V} {cands : ℕ → G → List X} {outcomes : ℕ → G → List (Option Bool)}
    (h : Others p w cands outcomes) (truth : X → Y) (app : ℕ → ℕ → G → List X → List Y → G) :
    WorldOk p { w with truth := fun x => .ok (truth x), append := fun i r g xs ys => .ok (app i r g xs ys) }
      cands truth app outcomes :=
  ⟨h.acquire, fun _ => rfl, fun _ _ _ _ _ => rfl, h.callback, h.crits, h.sample⟩

theorem evalTruth_cases [hY : Nonempty Y] (hp : 0 < p) (truth : X → Except Exc Y) (newX : List X) :
    (∃ ys, List.Forall₂ (fun x y => truth x = .ok y) newX ys ∧
      Runs (fun r : Fin p => evalTruthMPI truth p r newX) fun _ => .ok ys) ∨
    Fails (fun r : Fin p => evalTruthMPI truth p r newX) := by
  classical
  by_cases h : ∃ x ∈ newX, ∃ e, truth x = .error e
  · right
    obtain ⟨x, hx, e, he⟩ := h
    rw [← Mpi.flatten_evalChunk p hp newX, List.mem_flatten] at hx
    obtain ⟨l, hl, hxl⟩ := hx
    rw [List.mem_map] at hl
    obtain ⟨r, hr, rfl⟩ := hl
    obtain ⟨e', he'⟩ := evalAll_error hxl he
    refine Fails.bind (f := fun r : Fin p => Prog.fin (evalAll truth (Mpi.evalChunk p r newX))) ?_ _
    refine fails_raise ⟨r, by simpa using hr⟩ e' ?_
    simp only [he']
    rfl
  · left
    push Not at h
    have h' : ∀ x ∈ newX, ∃ y, truth x = .ok y := by
      intro x hx
      rcases ht : truth x with e | y
      · exact absurd ht (h x hx e)
      · exact ⟨y, rfl⟩
    obtain ⟨y0⟩ := hY
    let f : X → Y := fun x => match truth x with | .ok y => y | .error _ => y0
    have hf : ∀ x ∈ newX, truth x = .ok (f x) := by
      intro x hx
      obtain ⟨y, hy⟩ := h' x hx
      simp only [f, hy]
    refine ⟨newX.map f, ?_, C03_eval_truth_mpi hp hf⟩
    rw [List.forall₂_map_right_iff]
    exact List.forall₂_same.2 hf

/-- What a participant of the fit does: append, or not. -/
theorem fit_cases (hp : 0 < p) (nRestarts : ℕ → ℕ) (app : ℕ → Except Exc G) (lml : G → Option V) (g : G) :
    (∃ r g', r < p ∧ (nRestarts r ≠ 0 ∨ r = 0) ∧ app r = .ok g' ∧
      Runs (fun r : Fin p => fitMPI r (nRestarts r) (app r) lml g) fun _ => .ok g') ∨
    Fails (fun r : Fin p => fitMPI r (nRestarts r) (app r) lml g) := by
  by_cases h : ∃ r : Fin p, (nRestarts r ≠ 0 ∨ r.val = 0) ∧ ∃ e, app r = .error e
  · right
    obtain ⟨r, hr, e, he⟩ := h
    refine Runs.bind_fails (runs_share ⟨0, hp⟩ fun _ => ()) (Fails.bind ?_ _)
    refine fails_raise r e ?_
    simp only [if_pos hr, he]
    rfl
  · left
    push Not at h
    let f : ℕ → G := fun r => match app r with | .ok g' => g' | .error _ => g
    have hf : ∀ r : Fin p, (nRestarts r ≠ 0 ∨ r.val = 0) → app r = .ok (f r) := by
      intro r hr
      rcases ha : app r with e | g'
      · exact absurd ha (h r hr e)
      · simp only [f, ha]
    have hr := C39_fit_mpi hp nRestarts f lml g
    obtain ⟨hb, hc, -⟩ := Run.C39_best_process hp nRestarts fun r => lml (f r)
    refine ⟨_, _, hb, hc, hf ⟨_, hb⟩ hc, ?_⟩
    have he : (fun r : Fin p => fitMPI r (nRestarts r) (app r) lml g) =
        fun r : Fin p => fitMPI r (nRestarts r) (.ok (f r)) lml g := by
      funext r
      unfold fitMPI
      by_cases hr : nRestarts r ≠ 0 ∨ r.val = 0
      · rw [hf r hr]
      · simp only [if_neg hr]
    rw [he]
    exact hr

variable [hY : Nonempty Y] {w : World G X Y V} {cands : ℕ → G → List X} {outcomes : ℕ → G → List (Option Bool)}

/-- One iteration of all the processes: they raise, or all arrive at the same state, the surrogate being the old one, or
one to which the candidates were appended with their true values. -/
theorem iterate_cases (hp : 0 < p) (h : Others p w cands outcomes) (o : Run.Opts) (st : Run.St G X) :
    (∃ st' c, Runs (fun r : Fin p => iterateMPI w o p r st) (fun _ => .ok (st', c)) ∧ (∀ e, c ≠ .raise e) ∧
      ((st'.gpr = st.gpr ∧ st'.evals = st.evals) ∨
       (st'.evals = st.evals ++ cands st.iter st.gpr ∧ ∃ r < p, ∃ ys,
        (w.nRestarts st.iter r ≠ 0 ∨ r = 0) ∧
        List.Forall₂ (fun x y => w.truth x = .ok y) (cands st.iter st.gpr) ys ∧
        w.append st.iter r st.gpr (cands st.iter st.gpr) ys = .ok st'.gpr))) ∨
    Fails (fun r : Fin p => iterateMPI w o p r st) := by
  by_cases hc : ((cands st.iter st.gpr).length : ℤ) < max 1 (o.nAcq / 2)
  · left
    by_cases hr : o.nResamples < (st.resamples + 1 : ℕ)
    · refine ⟨{ st with iter := st.iter + 1, resamples := st.resamples + 1, trace := .insufficient :: st.trace }, .break_,
        Runs.bind runs_sync (Runs.bind (h.acquire st.iter st.gpr) ?_), by simp, .inl ⟨?_, ?_⟩⟩
      · simp only [if_pos hc, if_pos hr]
        refine Runs.bind (runs_share ⟨0, hp⟩ fun r => if r.val = 0 then true else false) ?_
        simp only [if_true]
        exact Runs.pure _
      all_goals rfl
    · refine ⟨{ st with iter := st.iter + 1, resamples := st.resamples + 1, trace := .insufficient :: st.trace }, .next,
        Runs.bind runs_sync (Runs.bind (h.acquire st.iter st.gpr) ?_), by simp, .inl ⟨?_, ?_⟩⟩
      · simp only [if_pos hc, if_neg hr]
        refine Runs.bind (runs_share ⟨0, hp⟩ fun r => false) ?_
        simp only [Bool.false_eq_true, if_false]
        exact Runs.pure _
      all_goals rfl
  · rcases evalTruth_cases hp w.truth (cands st.iter st.gpr) with ⟨ys, hys, hev⟩ | hev
    · rcases fit_cases hp (w.nRestarts st.iter)
        (fun r => w.append st.iter r st.gpr (cands st.iter st.gpr) ys) w.lml st.gpr with ⟨r, g', hr, hnr, hap, hfit⟩ | hfit
      · left
        have hw := h.ok (fun _ => hY.some) (fun _ _ g _ _ => g)
        have hcb := runs_callback hw st.iter g'
        have hck := runs_check hp hw st.iter g'
        have hmc := runs_generateMC hp hw st.iter g'
        have hdg := runs_diagnose hp w st.iter g'
        by_cases hconv : Run.checkConvergence (((w.crits st.iter g').map Crit.policy).zip (outcomes st.iter g')) = true
        · refine ⟨⟨g', w.diag1 st.iter g' && (w.diag2 st.iter g').getD true, 0, st.iter + 1,
            .evaluated (st.iter + 1) (cands st.iter st.gpr).length true (w.diag1 st.iter g' && (w.diag2 st.iter g').getD true)
              :: st.trace, st.evals ++ cands st.iter st.gpr⟩, .next, Runs.bind runs_sync (Runs.bind (h.acquire st.iter st.gpr) ?_), by simp,
            .inr ⟨?_, r, hr, ys, hnr, hys, ?_⟩⟩
          · simp only [if_neg hc]
            refine Runs.bind runs_sync (Runs.bind hev (Runs.bind runs_sync (Runs.bind hfit (Runs.bind runs_sync
              (Runs.bind (runs_share ⟨0, hp⟩ fun _ => ()) (Runs.bind hcb (Runs.bind runs_sync (Runs.bind hck
                (Runs.bind runs_sync (Runs.bind (runs_share ⟨0, hp⟩ fun _ => _) (Runs.bind runs_sync
                  (Runs.bind (runs_updateMeanCov hp) ?_))))))))))))
            simp only [hconv, if_true]
            exact Runs.bind hmc (Runs.bind hdg (Runs.bind runs_sync (Runs.bind (runs_progressSync hp 9) (Runs.pure _))))
          · rfl
          · exact hap
        · refine ⟨⟨g', false, 0, st.iter + 1,
            .evaluated (st.iter + 1) (cands st.iter st.gpr).length false false :: st.trace,
            st.evals ++ cands st.iter st.gpr⟩, .next, Runs.bind runs_sync (Runs.bind (h.acquire st.iter st.gpr) ?_), by simp,
            .inr ⟨?_, r, hr, ys, hnr, hys, ?_⟩⟩
          · simp only [if_neg hc]
            refine Runs.bind runs_sync (Runs.bind hev (Runs.bind runs_sync (Runs.bind hfit (Runs.bind runs_sync
              (Runs.bind (runs_share ⟨0, hp⟩ fun _ => ()) (Runs.bind hcb (Runs.bind runs_sync (Runs.bind hck
                (Runs.bind runs_sync (Runs.bind (runs_share ⟨0, hp⟩ fun _ => _) (Runs.bind runs_sync
                  (Runs.bind (runs_updateMeanCov hp) ?_))))))))))))
            rw [Bool.not_eq_true] at hconv
            simp only [hconv, Bool.false_eq_true, if_false]
            exact Runs.bind (runs_progressSync hp 9) (Runs.pure _)
          · rfl
          · exact hap
      · right
        refine Runs.bind_fails runs_sync (Runs.bind_fails (h.acquire st.iter st.gpr) ?_)
        simp only [if_neg hc]
        exact Runs.bind_fails runs_sync (Runs.bind_fails hev (Runs.bind_fails runs_sync (hfit.bind _)))
    · right
      refine Runs.bind_fails runs_sync (Runs.bind_fails (h.acquire st.iter st.gpr) ?_)
      simp only [if_neg hc]
      exact Runs.bind_fails runs_sync (hev.bind _)

/-- The loop: one process raises, or all of them arrive at the same state; a relation `J` between the surrogate and the
points evaluated that is kept by appending candidates with their true values holds at the end. -/
theorem loop_cases (hp : 0 < p) (h : Others p w cands outcomes) (o : Run.Opts) (nT nF : G → ℕ)
    (J : G → List X → Prop)
    (hJ : ∀ i r g ev ys g', J g ev → r < p → (w.nRestarts i r ≠ 0 ∨ r = 0) →
      List.Forall₂ (fun x y => w.truth x = .ok y) (cands i g) ys → w.append i r g (cands i g) ys = .ok g' →
      J g' (ev ++ cands i g)) :
    ∀ (fuel : ℕ) (st : Run.St G X), J st.gpr st.evals →
      (∃ q, Runs (fun r : Fin p => loopMPI w o nT nF p r fuel st) (fun _ => .ok q) ∧
        ∀ st' e, q = some (st', e) → J st'.gpr st'.evals) ∨
      Fails (fun r : Fin p => loopMPI w o nT nF p r fuel st)
  | 0, st, hst => .inl ⟨none, Runs.pure _, by simp⟩
  | fuel + 1, st, hst => by
    unfold loopMPI
    by_cases hw : 0 < o.maxTotal - nT st.gpr ∧ 0 < o.maxFinite - nF st.gpr ∧ st.hasConverged = false
    · simp only [if_pos hw]
      rcases iterate_cases hp h o st with ⟨st', c, hr, hc, hs⟩ | hf
      · have hst' : J st'.gpr st'.evals := by
          rcases hs with ⟨h1, h2⟩ | ⟨h1, r, hrp, ys, hn, hys, happ⟩
          · rw [h1, h2]; exact hst
          · rw [h1]; exact hJ _ _ _ _ _ _ hst hrp hn hys happ
        cases c with
        | next =>
          rcases loop_cases hp h o nT nF J hJ fuel st' hst' with ⟨q, hq, hq'⟩ | hq
          · exact .inl ⟨q, Runs.bind hr hq, hq'⟩
          · exact .inr (Runs.bind_fails hr hq)
        | break_ =>
          refine .inl ⟨some (st', .gaveUp), Runs.bind hr (Runs.pure _), ?_⟩
          rintro st1 e he
          cases he
          exact hst'
        | raise e => exact absurd rfl (hc e)
      · exact .inr (hf.bind _)
    · simp only [if_neg hw]
      refine .inl ⟨some (st, .finished), Runs.pure _, ?_⟩
      rintro st1 e he
      cases he
      exact hst

/-- run.py:1019-1061: what follows the loop (part of `runMPI`). -/
def afterLoop (w : World G X Y V) (r : ℕ) : Option (Run.St G X × Run.Exit) → Prog Exc (Option (Run.St G X × Run.Exit))
  | some (st, .finished) => do
    sync
    if r = 0 ∧ st.hasConverged = false then
      generateMC w st.iter r st.gpr
      let _ ← diagnose w st.iter r st.gpr
      sync
      pure (some (st, .finished))
    else pure (some (st, .finished))
  | q => pure q

theorem runMPI_eq (w : World G X Y V) (o : Run.Opts) (nT nF : G → ℕ) (p fuel : ℕ) (g : G) (r : ℕ) :
    runMPI w o nT nF p fuel g r = loopMPI w o nT nF p r fuel (.start g) >>= afterLoop w r := by
  unfold runMPI
  congr 1
  funext q
  rcases q with _ | ⟨st, e⟩
  · rfl
  · cases e <;> rfl

/-- The run: if all the processes return, they return the same, and `J` holds. -/
theorem run_returns (hp : 0 < p) (h : Others p w cands outcomes) (o : Run.Opts) (nT nF : G → ℕ)
    (J : G → List X → Prop)
    (hJ : ∀ i r g ev ys g', J g ev → r < p → (w.nRestarts i r ≠ 0 ∨ r = 0) →
      List.Forall₂ (fun x y => w.truth x = .ok y) (cands i g) ys → w.append i r g (cands i g) ys = .ok g' →
      J g' (ev ++ cands i g)) (fuel : ℕ) (g : G) (hg : J g []) {res : Fin p → Option (Run.St G X × Run.Exit)}
    (hr : Runs (fun r : Fin p => runMPI w o nT nF p fuel g r) fun r => .ok (res r)) :
    ∃ q, (∀ r, res r = q) ∧ ∀ st e, q = some (st, e) → J st.gpr st.evals := by
  rcases loop_cases hp h o nT nF J hJ fuel (.start g) hg with ⟨q, hq, hq'⟩ | hf
  · refine ⟨q, fun r => ?_, hq'⟩
    have hk : ∀ r : Fin p, AllRet (fun a => a = q) (afterLoop w r q) := by
      intro r
      rcases q with _ | ⟨st, e⟩
      · exact rfl
      · cases e with
        | gaveUp => exact rfl
        | raised e => exact rfl
        | finished =>
          refine AllRet.bind _ fun _ => ?_
          split_ifs
          · exact AllRet.bind _ fun _ => AllRet.bind _ fun _ => AllRet.bind _ fun _ => rfl
          · exact rfl
    have h1 := hq.bind_reach fun r : Fin p => afterLoop w r
    simp only [runMPI_eq] at hr
    rcases reach_total hp h1 hr with h2 | h2
    · exact AllRet.runs (res := fun r => .ok (res r)) h2 (hk r) rfl
    · have h3 := congrFun (reach_fin hp h2) r
      have h4 := hk r
      rw [h3] at h4
      exact h4
  · simp only [runMPI_eq] at hr
    exact ((hf.bind _).not_runs hp hr).elim

/-- The surrogate of process `r` after its fit, in an iteration in which it appends. -/
def ownGpr (w : World G X Y V) (cands : ℕ → G → List X) (truth : X → Y) (i : ℕ) (g : G) (r : ℕ) : G :=
  match w.append i r g (cands i g) ((cands i g).map truth) with
  | .ok g' => g'
  | .error _ => g

/-- Whether no process that appends raises. -/
def fitOk (p : ℕ) (w : World G X Y V) (cands : ℕ → G → List X) (truth : X → Y) (i : ℕ) (g : G) : Bool :=
  (List.range p).all fun r => (w.nRestarts i r == 0 && r != 0) ||
    (match w.append i r g (cands i g) ((cands i g).map truth) with | .ok _ => true | .error _ => false)

/-- What the components amount to in the serial model: as `serialStep`, for a fit that can raise. -/
def serialStepE (p : ℕ) (w : World G X Y V) (cands : ℕ → G → List X) (truth : X → Y)
    (outcomes : ℕ → G → List (Option Bool)) (i : ℕ) (g : G) : Run.Step G X :=
  let g' := ownGpr w cands truth i g (Run.bestRank p (w.nRestarts i) fun r => w.lml (ownGpr w cands truth i g r))
  { cands := cands i g
    fit := fun _ => if fitOk p w cands truth i g then .ok g' else .error .valueError
    conv := Run.checkConvergence (((w.crits i g').map Crit.policy).zip (outcomes i g'))
    diag := w.diag1 i g' && (w.diag2 i g').getD true }

/-- An iteration of the serial model that does not raise is an iteration of all the processes. -/
theorem iterate_serial (hp : 0 < p) (h : Others p w cands outcomes) (truth : X → Y)
    (ht : ∀ i g, ∀ x ∈ cands i g, w.truth x = .ok (truth x)) (o : Run.Opts) (st : Run.St G X)
    (hn : ∀ e, (Run.iterate o true (serialStepE p w cands truth outcomes st.iter st.gpr) st).2 ≠ .raise e) :
    Runs (fun r : Fin p => iterateMPI w o p r st)
      fun _ => .ok (Run.iterate o true (serialStepE p w cands truth outcomes st.iter st.gpr) st) := by
  refine Runs.bind runs_sync (Runs.bind (h.acquire st.iter st.gpr) ?_)
  unfold Run.iterate at hn ⊢
  dsimp only [serialStepE] at hn ⊢
  by_cases hc : ((cands st.iter st.gpr).length : ℤ) < max 1 (o.nAcq / 2)
  · simp only [if_pos hc]
    by_cases hr : o.nResamples < (st.resamples + 1 : ℕ)
    · simp only [if_pos hr]
      refine Runs.bind (runs_share ⟨0, hp⟩ fun r => if r.val = 0 then true else false) ?_
      simpa using Runs.pure _
    · simp only [if_neg hr]
      refine Runs.bind (runs_share ⟨0, hp⟩ fun r => false) ?_
      simpa using Runs.pure _
  · simp only [if_neg hc] at hn ⊢
    refine Runs.bind runs_sync (Runs.bind (C03_eval_truth_mpi hp (ht st.iter st.gpr)) (Runs.bind runs_sync ?_))
    cases hfo : fitOk p w cands truth st.iter st.gpr with
    | false => simp [hfo] at hn
    | true =>
      simp only [if_true]
      have hown : ∀ r : Fin p, w.nRestarts st.iter r ≠ 0 ∨ r.val = 0 →
          w.append st.iter r st.gpr (cands st.iter st.gpr) ((cands st.iter st.gpr).map truth) =
            .ok (ownGpr w cands truth st.iter st.gpr r) := by
        intro r hr
        unfold fitOk at hfo
        rw [List.all_eq_true] at hfo
        have := hfo r.val (by simp)
        unfold ownGpr
        rcases ha : w.append st.iter r st.gpr (cands st.iter st.gpr) ((cands st.iter st.gpr).map truth) with e | g'
        · rw [ha] at this
          simp at this
          rcases hr with hr | hr
          · exact absurd this.1 hr
          · exact absurd hr (fun h => this.2 (by simp [h]))
        · rfl
      have hf : Runs (fun r : Fin p => fitMPI r (w.nRestarts st.iter r)
          (w.append st.iter r st.gpr (cands st.iter st.gpr) ((cands st.iter st.gpr).map truth)) w.lml st.gpr)
          fun _ => .ok (ownGpr w cands truth st.iter st.gpr (Run.bestRank p (w.nRestarts st.iter) fun r =>
            w.lml (ownGpr w cands truth st.iter st.gpr r))) := by
        have he : (fun r : Fin p => fitMPI r (w.nRestarts st.iter r)
            (w.append st.iter r st.gpr (cands st.iter st.gpr) ((cands st.iter st.gpr).map truth)) w.lml st.gpr) =
            fun r : Fin p => fitMPI r (w.nRestarts st.iter r) (.ok (ownGpr w cands truth st.iter st.gpr r)) w.lml st.gpr := by
          funext r
          unfold fitMPI
          by_cases hr : w.nRestarts st.iter r ≠ 0 ∨ r.val = 0
          · rw [hown r hr]
          · simp only [if_neg hr]
        rw [he]
        exact C39_fit_mpi hp (w.nRestarts st.iter) (ownGpr w cands truth st.iter st.gpr) w.lml st.gpr
      have hw := h.ok truth (fun _ _ g _ _ => g)
      refine Runs.bind hf (Runs.bind runs_sync (Runs.bind (runs_share ⟨0, hp⟩ fun _ => ())
        (Runs.bind (runs_callback hw st.iter _) (Runs.bind runs_sync (Runs.bind (runs_check hp hw st.iter _)
          (Runs.bind runs_sync (Runs.bind (runs_share ⟨0, hp⟩ fun _ => _) (Runs.bind runs_sync
            (Runs.bind (runs_updateMeanCov hp) ?_)))))))))
      split_ifs with hconv
      · exact Runs.bind (runs_generateMC hp hw st.iter _) (Runs.bind (runs_diagnose hp w st.iter _)
          (Runs.bind runs_sync (Runs.bind (runs_progressSync hp 9) (Runs.pure _))))
      · simp only [Bool.not_eq_true] at hconv
        simp only [hconv]
        exact Runs.bind (runs_progressSync hp 9) (Runs.pure _)

/-- A loop of the serial model that does not raise is a loop of all the processes. -/
theorem loop_serial (hp : 0 < p) (h : Others p w cands outcomes) (truth : X → Y)
    (ht : ∀ i g, ∀ x ∈ cands i g, w.truth x = .ok (truth x)) (o : Run.Opts) (nT nF : G → ℕ) :
    ∀ (fuel : ℕ) (st : Run.St G X),
      (∀ st' e, Run.loop o true nT nF (serialStepE p w cands truth outcomes) fuel st ≠ some (st', .raised e)) →
      Runs (fun r : Fin p => loopMPI w o nT nF p r fuel st)
        fun _ => .ok (Run.loop o true nT nF (serialStepE p w cands truth outcomes) fuel st)
  | 0, st, _ => Runs.pure _
  | fuel + 1, st, hn => by
    unfold loopMPI
    unfold Run.loop at hn ⊢
    split_ifs at hn ⊢ with hw
    · rcases hx : Run.iterate o true (serialStepE p w cands truth outcomes st.iter st.gpr) st with ⟨st', c⟩
      rw [hx] at hn
      have hr : (∀ e, c ≠ .raise e) → Runs (fun r : Fin p => iterateMPI w o p r st) fun _ => .ok (st', c) := by
        intro hc
        have := iterate_serial hp h truth ht o st (by rw [hx]; exact hc)
        rw [hx] at this
        exact this
      cases c with
      | next => exact Runs.bind (hr (by simp)) (loop_serial hp h truth ht o nT nF fuel st' hn)
      | break_ => exact Runs.bind (hr (by simp)) (Runs.pure _)
      | raise e => exact absurd rfl (hn st' e)
    · exact Runs.pure _

/-- A serial run that does not raise and converges (or gives up, or has a single process) is a run of all of them. -/
theorem run_serial (hp : 0 < p) (h : Others p w cands outcomes) (truth : X → Y)
    (ht : ∀ i g, ∀ x ∈ cands i g, w.truth x = .ok (truth x)) (o : Run.Opts) (nT nF : G → ℕ) (fuel : ℕ) (g : G)
    {st : Run.St G X} {e : Run.Exit}
    (hl : Run.loop o true nT nF (serialStepE p w cands truth outcomes) fuel (.start g) = some (st, e))
    (he : ∀ e', e ≠ .raised e') (hc : p = 1 ∨ e = .gaveUp ∨ st.hasConverged = true) :
    Runs (fun r : Fin p => runMPI w o nT nF p fuel g r) fun _ => .ok (some (st, e)) := by
  have h1 := loop_serial hp h truth ht o nT nF fuel (.start g) (by
    rw [hl]; rintro st' e' h; cases h; exact he e' rfl)
  rw [hl] at h1
  refine Runs.bind h1 ?_
  have hw := h.ok truth (fun _ _ g _ _ => g)
  cases e with
  | gaveUp => exact Runs.pure _
  | raised e' => exact absurd rfl (he e')
  | finished =>
    refine Runs.bind runs_sync ?_
    cases hst : st.hasConverged with
    | true => simpa using Runs.pure _
    | false =>
      rcases hc with rfl | hc | hc
      · have : ∀ r : Fin 1, r.val = 0 := fun r => by omega
        simp only [this, true_and, if_true]
        have hd := runs_diagnose hp w st.iter st.gpr
        have hm := runs_generateMC hp hw st.iter st.gpr
        simp only [this] at hd hm
        exact Runs.bind hm (Runs.bind hd (Runs.bind runs_sync (Runs.pure _)))
      · simp at hc
      · rw [hst] at hc; simp at hc

end Loop

/-! ## The initial training -/

section Init
variable {P PX Θ K : Type} [Field K] [LinearOrder K] {p : ℕ}

/-- If the initial training returns in all the processes, the serial one returns too, with the same surrogate. -/
theorem initial_returns (hp : 0 < p) (cfg : Gpr.Cfg P PX Θ K) (nInitial maxInitial : ℕ) (verbose : ℤ)
    (draw : ℕ → ℕ → ℕ → P × Ext K) (g : Gpr.State P PX Θ K) {g' : Fin p → Gpr.State P PX Θ K}
    (h : Runs (fun r : Fin p => initialMPI cfg p nInitial maxInitial verbose draw g r) fun r => .ok (g' r)) :
    ∃ acc g1, Run.initialTraining cfg p nInitial maxInitial verbose draw g = .ok (acc, g1) ∧ ∀ r, g' r = g1 := by
  rcases hs : Run.initialTraining cfg p nInitial maxInitial verbose draw g with e | ⟨acc, g1⟩
  · exfalso
    by_cases he : e = .zeroDivision
    · subst he
      have := Runs.det hp h ((C77_initial_training_partial hp cfg nInitial maxInitial verbose draw g).2 hs)
      have := congrFun this ⟨0, hp⟩
      simp at this
    · by_cases h1 : 1 < p
      · exact h.not_deadlocks hp (C77_failure_deadlocks h1 cfg nInitial maxInitial verbose draw g hs he)
      · have hp1 : p = 1 := by omega
        subst hp1
        refine Fails.not_runs hp ?_ h
        unfold Run.initialTraining at hs
        dsimp only at hs
        by_cases hk : Mpi.ceilDiv (nInitial - g.yTrain.length) 1 = 0
        · simp only [if_pos hk] at hs
          split_ifs at hs with hv
          cases hs; exact absurd rfl he
        · simp only [if_neg hk] at hs
          obtain ⟨acc', h1, h2⟩ := runs_rounds hp cfg (Mpi.ceilDiv (nInitial - g.yTrain.length) 1)
            (nInitial - g.yTrain.length) draw (Mpi.ceilDiv maxInitial (Mpi.ceilDiv (nInitial - g.yTrain.length) 1)) 0
            (fun _ => g.xTrain.zip g.yTrain)
          rcases hq : Run.initRounds cfg 1 (Mpi.ceilDiv (nInitial - g.yTrain.length) 1) (nInitial - g.yTrain.length) draw
            (Mpi.ceilDiv maxInitial (Mpi.ceilDiv (nInitial - g.yTrain.length) 1)) 0 (g.xTrain.zip g.yTrain) with ⟨a, b⟩
          rw [hq] at hs h1 h2
          dsimp only at h1 h2
          have ha : appendInit cfg g (a, b) = .error e := by
            unfold appendInit
            cases b with
            | false => simpa using hs
            | true =>
              simp only [Bool.true_eq_false, if_false]
              dsimp only at hs
              split at hs
              · rename_i g1 e1 hg1
                cases hs
                rw [hg1]
              · simp at hs
          refine Runs.bind_fails (runs_share ⟨0, hp⟩ fun r : Fin 1 =>
            if r.val = 0 then Mpi.ceilDiv (nInitial - g.yTrain.length) 1 else 0) ?_
          simp only [if_true, if_neg hk]
          refine Runs.bind_fails runs_sync (Runs.bind_fails h1 (Fails.bind ?_ _))
          refine fails_raise ⟨0, hp⟩ e ?_
          simp only [if_true, h2, ha]
          rfl
  · refine ⟨acc, g1, rfl, fun r => ?_⟩
    have := Runs.det hp h ((C77_initial_training_partial hp cfg nInitial maxInitial verbose draw g).1 acc g1 hs)
    have := congrFun this r
    simpa using this

end Init

/-! ## The whole run -/

section Whole
variable {P PX Θ K V : Type} [Field K] [LinearOrder K] [IsStrictOrderedRing K] [LinearOrder V] [OrderBot V] {p : ℕ}
open Gpr

/-- run.py:1249-1279: the call of `append_to_data` of a process with `n` restarts; `fit_classifier=True`. -/
def fitCall (n : ℕ) (xs : List P) (ys : List (Ext K)) : Call P K :=
  { batch := some (xs, ys), fit := if n = 0 then .no else .yes (some n), fitClf := true }

/-- What a process with `n` restarts gets from `append_to_data`. -/
def regAppend (cfg : Cfg P PX Θ K) (n : ℕ) (g : State P PX Θ K) (xs : List P) (ys : List (Ext K)) :
    Except Exc (State P PX Θ K) :=
  match append cfg g (fitCall n xs ys) with
  | (g', none) => .ok g'
  | (_, some _) => .error (.other "append_to_data")

theorem kept_theta {cfg : Cfg P PX Θ K} {st st' : State P PX Θ K} {e : Option Err} (h : updateModel cfg st = (st', e)) : st'.theta = st.theta := by
  have := (updateModel_same cfg st).2
  rwa [h] at this

theorem kept_data {cfg : Cfg P PX Θ K} {st st' : State P PX Θ K} {e : Option Err} (h : updateModel cfg st = (st', e)) : SameData st' st := by
  have := (updateModel_same cfg st).1
  rwa [h] at this

theorem fitHyper_theta {cfg : Cfg P PX Θ K} {st st' : State P PX Θ K} {n : Option ℕ} (h : fitHyper cfg n st = (st', none)) (hn : n.getD cfg.nRestarts ≠ 0) (hopt : cfg.canOptimise = true) :
    st'.theta = some (cfg.optimise st'.xTrain' st'.yTrain' st'.noiseVar st.theta (n.getD cfg.nRestarts)) := by
  unfold fitHyper at h
  dsimp only at h
  rw [if_neg (by rw [hopt]; simp [hn])] at h
  split at h
  · simp at h
  · split at h
    · simp at h
    · rename_i s1 heq
      obtain rfl := (Prod.mk.inj h).1
      dsimp only
      have hs := kept_data heq
      rw [kept_theta heq, hs.xTrain', hs.yTrain', hs.noiseVar]

/-- The hyperparameters after a call that added a finite point. -/
theorem append_theta {cfg : Cfg P PX Θ K} {st st' : State P PX Θ K} {c : Call P K} (h : append cfg st c = (st', none)) (hn : 0 < st'.nLastFinite) :
    (c.fit = .no → st'.theta = st.theta) ∧
    ∀ n, c.fit = .yes n → n.getD cfg.nRestarts ≠ 0 → cfg.canOptimise = true →
      st'.theta = some (cfg.optimise st'.xTrain' st'.yTrain' st'.noiseVar st.theta (n.getD cfg.nRestarts)) := by
  obtain ⟨_, nz, noise, T, mask, _, _, _, hmid⟩ := append_ok h
  obtain ⟨_, py', yAll', noise', svm, lastMask, _, _, _, _, _, hend⟩ := appendMid_ok hmid
  rcases hend with ⟨h0, _, rfl⟩ | ⟨_, hf⟩
  · simp only at h0 hn; omega
  · unfold appendFit at hf
    simp only at hf
    split at hf
    · simp at hf
    · split at hf
      · simp at hf
      · constructor
        · intro hno
          rw [hno] at hf
          dsimp only at hf
          have ht := kept_theta hf
          exact ht
        · intro n hy hnz hopt
          rw [hy] at hf
          dsimp only at hf
          have ht := fitHyper_theta hf hnz hopt
          exact ht

/-- **C133**, run.py:1249-1279: in an iteration that added a finite point, the processes without restarts keep their hyperparameters, the others have those that their restarts found. -/
theorem C133_restarts (cfg : Cfg P PX Θ K) (n : ℕ) (g g' : State P PX Θ K) (xs : List P) (ys : List (Ext K)) (h : regAppend cfg n g xs ys = .ok g') (hn : 0 < g'.nLastFinite)
    (hopt : cfg.canOptimise = true) : g'.theta = if n = 0 then g.theta else some (cfg.optimise g'.xTrain' g'.yTrain' g'.noiseVar g.theta n) := by
  unfold regAppend at h
  split at h
  · rename_i g1 happ
    cases h
    obtain ⟨h1, h2⟩ := append_theta happ hn
    split_ifs with h0
    · exact h1 (by simp [fitCall, h0])
    · exact h2 (some n) (by simp [fitCall, h0]) h0 hopt
  · simp at h

example : (regAppend (exCfg true) 1 exSt [7] [.fin 1]).toOption.map (fun g => g.theta) = some (some 3) ∧
    (regAppend (exCfg true) 0 exSt [7] [.fin 1]).toOption.map (fun g => g.theta) = some exSt.theta ∧ exSt.theta = some 2 := by decide +kernel

/-- The surrogate of the run is the modelled regressor. -/
def UsesRegressor (cfg : Cfg P PX Θ K) (w : World (State P PX Θ K) P (Ext K) V) : Prop :=
  ∀ i r g xs ys, w.append i r g xs ys = regAppend cfg (w.nRestarts i r) g xs ys

/-- **C133**: if a run with a fresh surrogate returns in all the processes, they all return the same; and the surrogate
holds exactly the points at which the true posterior was evaluated, in the order of the evaluations, each with the value
of the true posterior there, first the ones of the initial training and then those of the loop; its training set consists
of those that are kept by the classification (`KeptBy`). All the points satisfy whatever holds for those drawn and for
those proposed (for example, being inside of the prior bounds). -/
theorem C133_data_of_a_run (hp : 0 < p) {cfg : Cfg P PX Θ K} (hc : CfgOk cfg) (px : PX) (py : PreY K) (s : Noise K)
    (nInitial maxInitial : ℕ) (verbose : ℤ) (truth : P → Except Exc (Ext K)) (draw : ℕ → ℕ → ℕ → P × Ext K)
    (hdraw : ∀ i r j, truth (draw i r j).1 = .ok (draw i r j).2)
    (hgood : cfg.useSvm = true → ∀ x y, truth x = .ok y → Good y)
    {w : World (State P PX Θ K) P (Ext K) V} {cands : ℕ → State P PX Θ K → List P}
    {outcomes : ℕ → State P PX Θ K → List (Option Bool)} (hw : Others p w cands outcomes) (hu : UsesRegressor cfg w)
    (hwt : w.truth = truth) (B : P → Prop) (hB : ∀ i r j, B (draw i r j).1) (hB' : ∀ i g, ∀ x ∈ cands i g, B x)
    (o : Run.Opts) (nT nF : State P PX Θ K → ℕ) (fuel : ℕ) {g0 : Fin p → State P PX Θ K}
    {res : Fin p → Run.St (State P PX Θ K) P × Run.Exit}
    (h1 : Runs (fun r : Fin p => initialMPI cfg p nInitial maxInitial verbose draw (State.init px py s) r)
      fun r => .ok (g0 r))
    (h2 : Runs (fun r : Fin p => runMPI w o nT nF p fuel (g0 r) r) fun r => .ok (some (res r))) :
    ∃ st e initial, (∀ r, res r = (st, e)) ∧
      st.gpr.xAll = initial ++ st.evals ∧
      List.Forall₂ (fun x y => truth x = .ok y) st.gpr.xAll st.gpr.yAll ∧
      st.gpr.xTrain = (specTrain cfg st.gpr.xAll st.gpr.yAll).map Prod.fst ∧
      st.gpr.yTrain = (specTrain cfg st.gpr.xAll st.gpr.yAll).map Prod.snd ∧
      (∀ x ∈ initial, ∃ i r j, x = (draw i r j).1) ∧
      ∀ x ∈ st.gpr.xAll, B x := by
  obtain ⟨acc, g1, hi, hg⟩ := initial_returns hp cfg nInitial maxInitial verbose draw _ h1
  obtain ⟨hn, hx, hy, hd, -⟩ := Run.C54_initial_training_partial hc px py s hp
    (fun hs i r j => hgood hs _ _ (hdraw i r j)) hi
  have h0 : Inv cfg g1 := by
    unfold Run.initialTraining at hi
    dsimp only at hi
    split_ifs at hi with hk hv
    · cases hi
      exact inv_init cfg px py s
    · split at hi
      · simp at hi
      · rename_i acc' heq
        split at hi
        · simp at hi
        · rename_i g' happ
          cases hi
          refine inv_step hc (fun hs y hy => ?_) (inv_init cfg px py s) happ
          simp only [Call.ys, Option.map_some, Option.getD_some, List.mem_map] at hy
          obtain ⟨q, hq, rfl⟩ := hy
          obtain ⟨i, r, j, rfl⟩ := hd q hq
          exact hgood hs _ _ (hdraw i r j)
  let J : State P PX Θ K → List P → Prop := fun g ev => Inv cfg g ∧ g.xAll = acc.map Prod.fst ++ ev ∧
    List.Forall₂ (fun x y => truth x = .ok y) g.xAll g.yAll ∧ ∀ x ∈ g.xAll, B x
  have hJ0 : J g1 [] := by
    refine ⟨h0, by simp [hx], ?_, ?_⟩
    · rw [hx, hy, List.forall₂_map_left_iff, List.forall₂_map_right_iff]
      refine List.forall₂_same.2 fun q hq => ?_
      obtain ⟨i, r, j, rfl⟩ := hd q hq
      exact hdraw i r j
    · intro x hxm
      rw [hx, List.mem_map] at hxm
      obtain ⟨q, hq, rfl⟩ := hxm
      obtain ⟨i, r, j, rfl⟩ := hd q hq
      exact hB i r j
  simp only [hg] at h2
  haveI : Nonempty (Ext K) := ⟨.nan⟩
  obtain ⟨q, hq, hq'⟩ := run_returns hp hw o nT nF J (by
    rintro i r g ev ys g' ⟨ha, hb, hc', hd'⟩ hr hn hys happ
    rw [hu] at happ
    unfold regAppend at happ
    split at happ
    · rename_i g2 happ2
      cases happ
      rw [hwt] at hys
      have hgy : cfg.useSvm = true → ∀ y ∈ (fitCall (w.nRestarts i r) (cands i g) ys).ys, Good y := by
        intro hs y hy
        simp only [fitCall, Call.ys, Option.map_some, Option.getD_some] at hy
        obtain ⟨k, hk, rfl⟩ := List.getElem_of_mem hy
        have hk' : k < (cands i g).length := by rw [hys.length_eq]; exact hk
        exact hgood hs _ _ (List.forall₂_iff_get.1 hys |>.2 k hk' hk)
      have hi' := inv_step hc hgy ha happ2
      have hdt := append_data hc (by
        intro hs y hy
        rcases List.mem_append.1 hy with hy | hy
        · exact ha.2.1 hs y hy
        · exact hgy hs y hy) ha.1 happ2
      obtain ⟨hx2, hy2, -⟩ := hdt
      simp only [fitCall, Call.xs, Call.ys, Option.map_some, Option.getD_some] at hx2 hy2
      refine ⟨hi', by rw [hx2, hb, List.append_assoc], ?_, ?_⟩
      · rw [hx2, hy2]; exact List.rel_append hc' hys
      · rw [hx2]
        intro x hxm
        rcases List.mem_append.1 hxm with hxm | hxm
        · exact hd' x hxm
        · exact hB' i g x hxm
    · simp at happ) fuel g1 hJ0 h2
  rcases hr0 : res ⟨0, hp⟩ with ⟨st, e⟩
  have hq0 := hq ⟨0, hp⟩
  rw [hr0] at hq0
  obtain ⟨ha, hb, hc', hd'⟩ := hq' st e hq0.symm
  refine ⟨st, e, acc.map Prod.fst, fun r => ?_, hb, hc', ha.2.2.1, ha.2.2.2, ?_, hd'⟩
  · have := hq r
    rw [← hq0] at this
    simpa using this
  · intro x hxm
    rw [List.mem_map] at hxm
    obtain ⟨q, hq, rfl⟩ := hxm
    obtain ⟨i, r, j, rfl⟩ := hd q hq
    exact ⟨i, r, j, rfl⟩

end Whole

/-! ### An example: two processes, a regressor with a classifier -/

/-- A true posterior that vanishes at the multiples of 3. -/
def exTruth (x : ℕ) : Ext ℚ := if x % 3 = 0 then .negInf else .fin (x % 7 : ℕ)

/-- Two candidates per iteration; process 1 takes part in the fits of the odd iterations; convergence with 12 points. -/
def exRun : World (Gpr.State ℕ Unit ℕ ℚ) ℕ (Ext ℚ) ℕ where
  acquire := fun i r g => share 0 [1000 + i, 2000 + 2 * i]
  truth := fun x => .ok (exTruth x)
  nRestarts := fun i r => if i % 2 = 1 then 1 else 0
  append := fun i r => regAppend (Gpr.exCfg true) (if i % 2 = 1 then 1 else 0)
  lml := fun g => some g.yTrain.length
  hasCallback := false
  callback := fun i r g => ret ()
  callbackAware := false
  crits := fun i g => [⟨false, .n, fun _ => ret (decide (12 ≤ g.yAll.length))⟩]
  sample := fun i r g => sync
  diag1 := fun i g => true
  diag2 := fun i g => some true

theorem exRun_others (hp : 0 < p) : Others p exRun (fun i _ => [1000 + i, 2000 + 2 * i])
    (fun i g => [some (decide (12 ≤ g.yAll.length))]) where
  acquire := fun i g => runs_share ⟨0, hp⟩ fun _ => _
  callback := fun i g => by
    have : (fun r : Fin p => (if exRun.callbackAware = true ∨ r.val = 0 then exRun.callback i r g else pure () :
      Prog Exc Unit)) = fun r => pure () := by
      funext r; split_ifs <;> rfl
    rw [this]; exact Runs.pure _
  crits := fun i g => List.Forall₂.cons (Agreed.mainOk _ rfl rfl) List.Forall₂.nil
  sample := fun i g => runs_sync

/-- The points drawn for the initial training of the example. -/
def exPts (i r j : ℕ) : ℕ × Ext ℚ := (100 * i + 10 * r + j, exTruth (100 * i + 10 * r + j))

theorem exRun_serial : (Run.initialTraining (Gpr.exCfg true) 2 3 6 3 exPts Gpr.ex0).toOption.bind (fun q =>
    (Run.loop ⟨3, 6, 14, 14, 2, 1, 1, 2⟩ true (Gpr.nTotal (Gpr.exCfg true)) (fun g => g.yTrain.length)
      (serialStepE 2 exRun (fun i _ => [1000 + i, 2000 + 2 * i]) exTruth
        (fun i g => [some (decide (12 ≤ g.yAll.length))])) 20 (.start q.2)).map fun r =>
          (r.2, r.1.evals, r.1.gpr.xAll, r.1.gpr.xTrain, r.1.hasConverged)) =
    some (.finished, [1000, 2000, 1001, 2002, 1002, 2004, 1003, 2006],
      [0, 1, 10, 11, 1000, 2000, 1001, 2002, 1002, 2004, 1003, 2006],
      [1, 10, 11, 1000, 2000, 1001, 2002, 1003, 2006], true) := by decide +kernel

/-- C133: a run of two processes that meets the hypotheses of `C133_data_of_a_run`, and its data. -/
example : ∃ g st, Runs (fun r : Fin 2 => initialMPI (Gpr.exCfg true) 2 3 6 3 exPts (Gpr.State.init () (.aff 0 1) (.scalar 1)) r)
      (fun _ => .ok g) ∧
    Runs (fun r : Fin 2 => runMPI exRun ⟨3, 6, 14, 14, 2, 1, 1, 2⟩ (Gpr.nTotal (Gpr.exCfg true)) (fun g => g.yTrain.length)
      2 20 g r) (fun _ => .ok (some (st, .finished))) ∧
    Others 2 exRun (fun i _ => [1000 + i, 2000 + 2 * i]) (fun i g => [some (decide (12 ≤ g.yAll.length))]) ∧
    UsesRegressor (Gpr.exCfg true) exRun ∧ (∀ x, Gpr.Good (exTruth x)) ∧
    st.evals = [1000, 2000, 1001, 2002, 1002, 2004, 1003, 2006] ∧
    st.gpr.xAll = [0, 1, 10, 11, 1000, 2000, 1001, 2002, 1002, 2004, 1003, 2006] ∧
    st.gpr.xTrain = [1, 10, 11, 1000, 2000, 1001, 2002, 1003, 2006] := by
  have h := exRun_serial
  rcases hi : Run.initialTraining (Gpr.exCfg true) 2 3 6 3 exPts Gpr.ex0 with e | ⟨acc, g⟩
  · rw [hi] at h; simp [Except.toOption] at h
  · rw [hi] at h
    simp only [Except.toOption, Option.bind_some] at h
    rcases hl : Run.loop ⟨3, 6, 14, 14, 2, 1, 1, 2⟩ true (Gpr.nTotal (Gpr.exCfg true)) (fun g => g.yTrain.length)
      (serialStepE 2 exRun (fun i _ => [1000 + i, 2000 + 2 * i]) exTruth
        (fun i g => [some (decide (12 ≤ g.yAll.length))])) 20 (.start g) with _ | ⟨st, e⟩
    · rw [hl] at h; simp at h
    · rw [hl] at h
      simp only [Option.map_some, Option.some.injEq, Prod.mk.injEq] at h
      obtain ⟨rfl, h1, h2, h3, h4⟩ := h
      haveI : Nonempty (Ext ℚ) := ⟨.nan⟩
      refine ⟨g, st, (C77_initial_training_partial (by decide) _ _ _ _ _ _).1 acc g hi,
        run_serial (by decide) (exRun_others (by decide)) exTruth (fun _ _ _ _ => rfl) _ _ _ _ _ hl (by simp)
          (.inr (.inr h4)), exRun_others (by decide), fun _ _ _ _ _ => rfl, fun x => ?_, h1, h2, h3⟩
      unfold exTruth
      split_ifs
      · exact .inl rfl
      · exact .inr ⟨_, rfl⟩

/-- If the initial training returns in two processes, the serial one has evaluated the same points. -/
example (g' : Fin 2 → Gpr.State ℕ Unit ℕ ℚ)
    (h : Runs (fun r : Fin 2 => initialMPI (Gpr.exCfg true) 2 3 6 3 exPts Gpr.ex0 r) fun r => .ok (g' r)) : g' 0 = g' 1 := by
  obtain ⟨_, _, _, h'⟩ := initial_returns (by decide) _ _ _ _ _ _ h
  rw [h', h']

end GPry.Spmd
