import Verif.WholeRun
import Verif.ShiftProps
import Verif.UnitsProps
import Verif.OrderProps

set_option linter.all false

/-!
# Runs of several processes that follow a change of variables

Two runs (`runMPI`) whose components correspond to each other under a change of the points, of the values and of the
surrogates. Either both return in all the processes, with corresponding results, or both do not.
-/

namespace GPry.Spmd
open Prog

section Map
variable {p : ℕ} {G X Y G' X' Y' V : Type} [LinearOrder V] [OrderBot V]

/-- The state of the loop after a change of variables. -/
def mapSt (γ : G → G') (φ : X → X') (st : Run.St G X) : Run.St G' X' :=
  { gpr := γ st.gpr, hasConverged := st.hasConverged, resamples := st.resamples, iter := st.iter, trace := st.trace, evals := st.evals.map φ }

/-- The components of the second run do to the changed surrogates what those of the first one do to the original ones. -/
structure Follows (γ : G → G') (φ : X → X') (ψ : Y → Y') (w : World G X Y V) (cands : ℕ → G → List X) (outcomes : ℕ → G → List (Option Bool))
    (w' : World G' X' Y' V) (cands' : ℕ → G' → List X') (outcomes' : ℕ → G' → List (Option Bool)) : Prop where
  cands : ∀ i g, cands' i (γ g) = (cands i g).map φ
  truth : ∀ x, w'.truth (φ x) = (w.truth x).map ψ
  append : ∀ i r g xs ys, w'.append i r (γ g) (xs.map φ) (ys.map ψ) = (w.append i r g xs ys).map γ
  nRestarts : ∀ i r, w'.nRestarts i r = w.nRestarts i r
  lml : ∀ g, w'.lml (γ g) = w.lml g
  outcomes : ∀ i g, outcomes' i (γ g) = outcomes i g
  policy : ∀ i g, (w'.crits i (γ g)).map Crit.policy = (w.crits i g).map Crit.policy
  diag1 : ∀ i g, w'.diag1 i (γ g) = w.diag1 i g
  diag2 : ∀ i g, w'.diag2 i (γ g) = w.diag2 i g

theorem evalTruth_map [hY : Nonempty Y] (hp : 0 < p) {truth : X → Except Exc Y} {truth' : X' → Except Exc Y'} {φ : X → X'} {ψ : Y → Y'}
    (h : ∀ x, truth' (φ x) = (truth x).map ψ) (xs : List X) :
    (∃ ys, Runs (fun r : Fin p => evalTruthMPI truth p r xs) (fun _ => .ok ys) ∧
      Runs (fun r : Fin p => evalTruthMPI truth' p r (xs.map φ)) fun _ => .ok (ys.map ψ)) ∨
    (Fails (fun r : Fin p => evalTruthMPI truth p r xs) ∧ Fails (fun r : Fin p => evalTruthMPI truth' p r (xs.map φ))) := by
  haveI : Nonempty Y' := hY.map ψ
  rcases evalTruth_cases hp truth xs with ⟨ys, hys, hr⟩ | hf
  · left
    refine ⟨ys, hr, ?_⟩
    rcases evalTruth_cases hp truth' (xs.map φ) with ⟨ys', hys', hr'⟩ | hf'
    · have e : ys' = ys.map ψ := by
        rw [List.forall₂_map_left_iff] at hys'
        clear hr hr'
        induction hys generalizing ys' with
        | nil => cases hys'; rfl
        | cons hxy _ ih =>
          cases hys' with
          | cons h1 h2 =>
            rw [h, hxy] at h1
            cases h1
            rw [List.map_cons, ih _ h2]
      rw [← e]; exact hr'
    · exfalso
      obtain ⟨f⟩ : Nonempty (X' → Y') := inferInstance
      have hok : ∀ x ∈ xs.map φ, truth' x = .ok ((match truth' x with | .ok y => y | .error _ => f x)) := by
        intro x' hx'
        obtain ⟨x, hx, rfl⟩ := List.mem_map.1 hx'
        obtain ⟨k, hk, rfl⟩ := List.getElem_of_mem hx
        have := (List.forall₂_iff_get.1 hys).2 k hk (by rw [← hys.length_eq]; exact hk)
        rw [h]
        simp only [List.get_eq_getElem] at this
        rw [this]
        rfl
      exact hf'.not_runs hp (C03_eval_truth_mpi hp hok)
  · right
    refine ⟨hf, ?_⟩
    rcases evalTruth_cases hp truth' (xs.map φ) with ⟨ys', hys', hr'⟩ | hf'
    · exfalso
      obtain ⟨y0⟩ := hY
      have hok : ∀ x ∈ xs, truth x = .ok ((match truth x with | .ok y => y | .error _ => y0)) := by
        intro x hx
        obtain ⟨k, hk, rfl⟩ := List.getElem_of_mem hx
        have := (List.forall₂_iff_get.1 hys').2 k (by simpa using hk) (by rw [← hys'.length_eq]; simpa using hk)
        simp only [List.get_eq_getElem, List.getElem_map, h] at this
        rcases ht : truth xs[k] with e | y
        · rw [ht] at this; cases this
        · rfl
      exact hf.not_runs hp (C03_eval_truth_mpi hp hok)
    · exact hf'

theorem fit_map (hp : 0 < p) (nRestarts : ℕ → ℕ) (app : ℕ → Except Exc G) {lml : G → Option V} {lml' : G' → Option V} {γ : G → G'}
    (h : ∀ g, lml' (γ g) = lml g) (g : G) :
    (∃ g1, Runs (fun r : Fin p => fitMPI r (nRestarts r) (app r) lml g) (fun _ => .ok g1) ∧
      Runs (fun r : Fin p => fitMPI r (nRestarts r) ((app r).map γ) lml' (γ g)) fun _ => .ok (γ g1)) ∨
    (Fails (fun r : Fin p => fitMPI r (nRestarts r) (app r) lml g) ∧
      Fails (fun r : Fin p => fitMPI r (nRestarts r) ((app r).map γ) lml' (γ g))) := by
  by_cases h0 : ∃ r : Fin p, (nRestarts r ≠ 0 ∨ r.val = 0) ∧ ∃ e, app r = .error e
  · right
    obtain ⟨r, hr, e, he⟩ := h0
    constructor
    · refine Runs.bind_fails (runs_share ⟨0, hp⟩ fun _ => ()) (Fails.bind ?_ _)
      refine fails_raise r e ?_
      simp only [if_pos hr, he]
      rfl
    · refine Runs.bind_fails (runs_share ⟨0, hp⟩ fun _ => ()) (Fails.bind ?_ _)
      refine fails_raise r e ?_
      simp only [if_pos hr, he]
      rfl
  · left
    push Not at h0
    let f : ℕ → G := fun r => match app r with | .ok g' => g' | .error _ => g
    have hf : ∀ r : Fin p, (nRestarts r ≠ 0 ∨ r.val = 0) → app r = .ok (f r) := by
      intro r hr
      rcases ha : app r with e | g'
      · exact absurd ha (h0 r hr e)
      · simp only [f, ha]
    refine ⟨f (Run.bestRank p nRestarts fun r => lml (f r)), ?_, ?_⟩
    · have he : (fun r : Fin p => fitMPI r (nRestarts r) (app r) lml g) =
          fun r : Fin p => fitMPI r (nRestarts r) (.ok (f r)) lml g := by
        funext r
        unfold fitMPI
        by_cases hr : nRestarts r ≠ 0 ∨ r.val = 0
        · rw [hf r hr]
        · simp only [if_neg hr]
      rw [he]
      exact C39_fit_mpi hp nRestarts f lml g
    · have he : (fun r : Fin p => fitMPI r (nRestarts r) ((app r).map γ) lml' (γ g)) =
          fun r : Fin p => fitMPI r (nRestarts r) (.ok (γ (f r))) lml' (γ g) := by
        funext r
        unfold fitMPI
        by_cases hr : nRestarts r ≠ 0 ∨ r.val = 0
        · rw [hf r hr]; rfl
        · simp only [if_neg hr]
      rw [he]
      have := C39_fit_mpi hp nRestarts (fun r => γ (f r)) lml' (γ g)
      simp only [h] at this
      exact this

variable [hY : Nonempty Y] {γ : G → G'} {φ : X → X'} {ψ : Y → Y'} {w : World G X Y V} {cands : ℕ → G → List X} {outcomes : ℕ → G → List (Option Bool)}
  {w' : World G' X' Y' V} {cands' : ℕ → G' → List X'} {outcomes' : ℕ → G' → List (Option Bool)}

theorem iterate_map (hp : 0 < p) (h : Others p w cands outcomes) (h' : Others p w' cands' outcomes')
    (hf : Follows γ φ ψ w cands outcomes w' cands' outcomes') (o : Run.Opts) (st : Run.St G X) :
    (∃ st1 c, Runs (fun r : Fin p => iterateMPI w o p r st) (fun _ => .ok (st1, c)) ∧ (∀ e, c ≠ .raise e) ∧
      Runs (fun r : Fin p => iterateMPI w' o p r (mapSt γ φ st)) (fun _ => .ok (mapSt γ φ st1, c))) ∨
    (Fails (fun r : Fin p => iterateMPI w o p r st) ∧ Fails (fun r : Fin p => iterateMPI w' o p r (mapSt γ φ st))) := by
  haveI : Nonempty Y' := hY.map ψ
  have ha' := h'.acquire st.iter (γ st.gpr)
  rw [hf.cands] at ha'
  have hlen : ((((cands st.iter st.gpr).map φ).length : ℕ) : ℤ) = ((cands st.iter st.gpr).length : ℤ) := by rw [List.length_map]
  by_cases hc : ((cands st.iter st.gpr).length : ℤ) < max 1 (o.nAcq / 2)
  · left
    by_cases hr : o.nResamples < (st.resamples + 1 : ℕ)
    · refine ⟨{ st with iter := st.iter + 1, resamples := st.resamples + 1, trace := .insufficient :: st.trace }, .break_,
        Runs.bind runs_sync (Runs.bind (h.acquire st.iter st.gpr) ?_), by simp, Runs.bind runs_sync (Runs.bind ha' ?_)⟩
      · simp only [if_pos hc, if_pos hr]
        refine Runs.bind (runs_share ⟨0, hp⟩ fun r => if r.val = 0 then true else false) ?_
        simp only [if_true]
        exact Runs.pure _
      · have hr' : o.nResamples < ((mapSt γ φ st).resamples + 1 : ℕ) := hr
        simp only [hlen, if_pos hc, if_pos hr']
        refine Runs.bind (runs_share ⟨0, hp⟩ fun r => if r.val = 0 then true else false) ?_
        simp only [if_true]
        exact Runs.pure _
    · refine ⟨{ st with iter := st.iter + 1, resamples := st.resamples + 1, trace := .insufficient :: st.trace }, .next,
        Runs.bind runs_sync (Runs.bind (h.acquire st.iter st.gpr) ?_), by simp, Runs.bind runs_sync (Runs.bind ha' ?_)⟩
      · simp only [if_pos hc, if_neg hr]
        refine Runs.bind (runs_share ⟨0, hp⟩ fun r => false) ?_
        simp only [Bool.false_eq_true, if_false]
        exact Runs.pure _
      · have hr' : ¬ o.nResamples < ((mapSt γ φ st).resamples + 1 : ℕ) := hr
        simp only [hlen, if_pos hc, if_neg hr']
        refine Runs.bind (runs_share ⟨0, hp⟩ fun r => false) ?_
        simp only [Bool.false_eq_true, if_false]
        exact Runs.pure _
  · rcases evalTruth_map hp hf.truth (cands st.iter st.gpr) with ⟨ys, hev, hev'⟩ | ⟨hev, hev'⟩
    · rcases fit_map (p := p) hp (w.nRestarts st.iter)
        (fun r => w.append st.iter r st.gpr (cands st.iter st.gpr) ys) hf.lml st.gpr with ⟨g1, hfit, hfit'⟩ | ⟨hfit, hfit'⟩
      all_goals
        simp only [← hf.append] at hfit'
        simp only [← hf.nRestarts] at hfit'
      · left
        have hw := h.ok (fun _ => hY.some) (fun _ _ g _ _ => g)
        have hw' := h'.ok (fun _ => ψ hY.some) (fun _ _ g _ _ => g)
        have hck' := runs_check hp hw' st.iter (γ g1)
        have hdg' := runs_diagnose hp w' st.iter (γ g1)
        simp only [hf.diag1, hf.diag2] at hdg'
        have hcp : Run.checkConvergence (((w'.crits st.iter (γ g1)).map Crit.policy).zip (outcomes' st.iter (γ g1))) =
            Run.checkConvergence (((w.crits st.iter g1).map Crit.policy).zip (outcomes st.iter g1)) := by
          rw [hf.policy, hf.outcomes]
        by_cases hconv : Run.checkConvergence (((w.crits st.iter g1).map Crit.policy).zip (outcomes st.iter g1)) = true
        · refine ⟨⟨g1, w.diag1 st.iter g1 && (w.diag2 st.iter g1).getD true, 0, st.iter + 1,
            .evaluated (st.iter + 1) (cands st.iter st.gpr).length true (w.diag1 st.iter g1 && (w.diag2 st.iter g1).getD true)
              :: st.trace, st.evals ++ cands st.iter st.gpr⟩, .next, Runs.bind runs_sync (Runs.bind (h.acquire st.iter st.gpr) ?_), by simp,
            Runs.bind runs_sync (Runs.bind ha' ?_)⟩
          · simp only [if_neg hc]
            refine Runs.bind runs_sync (Runs.bind hev (Runs.bind runs_sync (Runs.bind hfit (Runs.bind runs_sync
              (Runs.bind (runs_share ⟨0, hp⟩ fun _ => ()) (Runs.bind (runs_callback hw st.iter g1) (Runs.bind runs_sync (Runs.bind (runs_check hp hw st.iter g1)
                (Runs.bind runs_sync (Runs.bind (runs_share ⟨0, hp⟩ fun _ => _) (Runs.bind runs_sync
                  (Runs.bind (runs_updateMeanCov hp) ?_))))))))))))
            simp only [hconv, if_true]
            exact Runs.bind (runs_generateMC hp hw st.iter g1) (Runs.bind (runs_diagnose hp w st.iter g1)
              (Runs.bind runs_sync (Runs.bind (runs_progressSync hp 9) (Runs.pure _))))
          · simp only [hlen, if_neg hc]
            refine Runs.bind runs_sync (Runs.bind hev' (Runs.bind runs_sync (Runs.bind hfit' (Runs.bind runs_sync
              (Runs.bind (runs_share ⟨0, hp⟩ fun _ => ()) (Runs.bind (runs_callback hw' st.iter (γ g1)) (Runs.bind runs_sync (Runs.bind hck'
                (Runs.bind runs_sync (Runs.bind (runs_share ⟨0, hp⟩ fun _ => _) (Runs.bind runs_sync
                  (Runs.bind (runs_updateMeanCov hp) ?_))))))))))))
            simp only [hcp, hconv, if_true]
            refine Runs.bind (runs_generateMC hp hw' st.iter (γ g1)) (Runs.bind hdg'
              (Runs.bind runs_sync (Runs.bind (runs_progressSync hp 9) ?_)))
            simp only [mapSt, List.map_append, List.length_map]
            exact Runs.pure _
        · refine ⟨⟨g1, false, 0, st.iter + 1,
            .evaluated (st.iter + 1) (cands st.iter st.gpr).length false false :: st.trace,
            st.evals ++ cands st.iter st.gpr⟩, .next, Runs.bind runs_sync (Runs.bind (h.acquire st.iter st.gpr) ?_), by simp,
            Runs.bind runs_sync (Runs.bind ha' ?_)⟩
          · simp only [if_neg hc]
            refine Runs.bind runs_sync (Runs.bind hev (Runs.bind runs_sync (Runs.bind hfit (Runs.bind runs_sync
              (Runs.bind (runs_share ⟨0, hp⟩ fun _ => ()) (Runs.bind (runs_callback hw st.iter g1) (Runs.bind runs_sync (Runs.bind (runs_check hp hw st.iter g1)
                (Runs.bind runs_sync (Runs.bind (runs_share ⟨0, hp⟩ fun _ => _) (Runs.bind runs_sync
                  (Runs.bind (runs_updateMeanCov hp) ?_))))))))))))
            rw [Bool.not_eq_true] at hconv
            simp only [hconv, Bool.false_eq_true, if_false]
            exact Runs.bind (runs_progressSync hp 9) (Runs.pure _)
          · simp only [hlen, if_neg hc]
            refine Runs.bind runs_sync (Runs.bind hev' (Runs.bind runs_sync (Runs.bind hfit' (Runs.bind runs_sync
              (Runs.bind (runs_share ⟨0, hp⟩ fun _ => ()) (Runs.bind (runs_callback hw' st.iter (γ g1)) (Runs.bind runs_sync (Runs.bind hck'
                (Runs.bind runs_sync (Runs.bind (runs_share ⟨0, hp⟩ fun _ => _) (Runs.bind runs_sync
                  (Runs.bind (runs_updateMeanCov hp) ?_))))))))))))
            rw [Bool.not_eq_true] at hconv
            simp only [hcp, hconv, Bool.false_eq_true, if_false]
            refine Runs.bind (runs_progressSync hp 9) ?_
            simp only [mapSt, List.map_append, List.length_map]
            exact Runs.pure _
      · right
        constructor
        · refine Runs.bind_fails runs_sync (Runs.bind_fails (h.acquire st.iter st.gpr) ?_)
          simp only [if_neg hc]
          exact Runs.bind_fails runs_sync (Runs.bind_fails hev (Runs.bind_fails runs_sync (hfit.bind _)))
        · refine Runs.bind_fails runs_sync (Runs.bind_fails ha' ?_)
          simp only [hlen, if_neg hc]
          exact Runs.bind_fails runs_sync (Runs.bind_fails hev' (Runs.bind_fails runs_sync (hfit'.bind _)))
    · right
      constructor
      · refine Runs.bind_fails runs_sync (Runs.bind_fails (h.acquire st.iter st.gpr) ?_)
        simp only [if_neg hc]
        exact Runs.bind_fails runs_sync (hev.bind _)
      · refine Runs.bind_fails runs_sync (Runs.bind_fails ha' ?_)
        simp only [hlen, if_neg hc]
        exact Runs.bind_fails runs_sync (hev'.bind _)

/-- The loop: in both runs the processes arrive at corresponding states, or in both a process raises. -/
theorem loop_map (hp : 0 < p) (h : Others p w cands outcomes) (h' : Others p w' cands' outcomes')
    (hf : Follows γ φ ψ w cands outcomes w' cands' outcomes') (o : Run.Opts) {nT nF : G → ℕ} {nT' nF' : G' → ℕ}
    (hT : ∀ g, nT' (γ g) = nT g) (hF : ∀ g, nF' (γ g) = nF g) :
    ∀ (fuel : ℕ) (st : Run.St G X),
      (∃ q, Runs (fun r : Fin p => loopMPI w o nT nF p r fuel st) (fun _ => .ok q) ∧
        Runs (fun r : Fin p => loopMPI w' o nT' nF' p r fuel (mapSt γ φ st)) (fun _ => .ok (q.map (Prod.map (mapSt γ φ) id)))) ∨
      (Fails (fun r : Fin p => loopMPI w o nT nF p r fuel st) ∧ Fails (fun r : Fin p => loopMPI w' o nT' nF' p r fuel (mapSt γ φ st)))
  | 0, st => .inl ⟨none, Runs.pure _, Runs.pure _⟩
  | fuel + 1, st => by
    unfold loopMPI
    rw [show (mapSt γ φ st).gpr = γ st.gpr from rfl, hT, hF, show (mapSt γ φ st).hasConverged = st.hasConverged from rfl]
    by_cases hw : 0 < o.maxTotal - nT st.gpr ∧ 0 < o.maxFinite - nF st.gpr ∧ st.hasConverged = false
    · simp only [if_pos hw]
      rcases iterate_map hp h h' hf o st with ⟨st1, c, hr, hc, hr'⟩ | ⟨hr, hr'⟩
      · cases c with
        | next =>
          rcases loop_map hp h h' hf o hT hF fuel st1 with ⟨q, hq, hq'⟩ | ⟨hq, hq'⟩
          · exact .inl ⟨q, Runs.bind hr hq, Runs.bind hr' hq'⟩
          · exact .inr ⟨Runs.bind_fails hr hq, Runs.bind_fails hr' hq'⟩
        | break_ => exact .inl ⟨some (st1, .gaveUp), Runs.bind hr (Runs.pure _), Runs.bind hr' (Runs.pure _)⟩
        | raise e => exact absurd rfl (hc e)
      · exact .inr ⟨hr.bind _, hr'.bind _⟩
    · simp only [if_neg hw]
      exact .inl ⟨some (st, .finished), Runs.pure _, Runs.pure _⟩

omit hY in
/-- What follows the loop, with two processes or more and without convergence: they do not all return. -/
theorem after_stuck (hp : 1 < p) (w : World G X Y V) (st : Run.St G X) (hc : st.hasConverged = false)
    {res : Fin p → Option (Run.St G X × Run.Exit)} :
    ¬ Runs (fun r : Fin p => afterLoop w r (some (st, .finished))) fun r => .ok (res r) := by
  intro h
  have h0 : 0 < p := by omega
  have h1 := Runs.bind_reach (runs_sync (p := p) (E := Exc)) fun (r : Fin p) _ =>
    (if r.val = 0 ∧ st.hasConverged = false then
      generateMC w st.iter r st.gpr >>= fun _ => diagnose w st.iter r st.gpr >>= fun _ => sync >>= fun _ => pure (some (st, Run.Exit.finished))
    else pure (some (st, Run.Exit.finished)) : Prog Exc (Option (Run.St G X × Run.Exit)))
  have h2 : (fun r : Fin p => (if r.val = 0 ∧ st.hasConverged = false then
      generateMC w st.iter r st.gpr >>= fun _ => diagnose w st.iter r st.gpr >>= fun _ => sync >>= fun _ => pure (some (st, Run.Exit.finished))
    else pure (some (st, Run.Exit.finished)) : Prog Exc (Option (Run.St G X × Run.Exit)))) = fun r => Prog.fin (.ok (res r)) := by
    rcases reach_total h0 h1 h with h2 | h2
    · rcases Relation.ReflTransGen.cases_head h2 with h3 | ⟨c, h3, -⟩
      · exact h3
      · refine absurd h3 (not_step_of_ended ⟨1, hp⟩ (.inl ⟨some (st, .finished), ?_⟩))
        simp only [one_ne_zero, false_and, if_false]
        rfl
    · exact reach_fin h0 h2
  have h3 := congrFun h2 ⟨0, h0⟩
  simp only [hc, and_self, if_true] at h3
  unfold generateMC at h3
  generalize w.sample st.iter 0 st.gpr = q at h3
  cases q <;> cases h3

/-- **C143, C144, C150** for several processes: if the components of two runs correspond to each other, either both return in all the processes, with
corresponding results (the same trace of iterations, the same end, corresponding evaluated points and surrogates), or neither does. -/
theorem run_map (hp : 0 < p) (h : Others p w cands outcomes) (h' : Others p w' cands' outcomes')
    (hf : Follows γ φ ψ w cands outcomes w' cands' outcomes') (o : Run.Opts) {nT nF : G → ℕ} {nT' nF' : G' → ℕ}
    (hT : ∀ g, nT' (γ g) = nT g) (hF : ∀ g, nF' (γ g) = nF g) (fuel : ℕ) (g : G) :
    (∃ q, Runs (fun r : Fin p => runMPI w o nT nF p fuel g r) (fun _ => .ok q) ∧
      Runs (fun r : Fin p => runMPI w' o nT' nF' p fuel (γ g) r) (fun _ => .ok (q.map (Prod.map (mapSt γ φ) id)))) ∨
    ((∀ res : Fin p → Option (Run.St G X × Run.Exit), ¬ Runs (fun r : Fin p => runMPI w o nT nF p fuel g r) fun r => .ok (res r)) ∧
      ∀ res : Fin p → Option (Run.St G' X' × Run.Exit), ¬ Runs (fun r : Fin p => runMPI w' o nT' nF' p fuel (γ g) r) fun r => .ok (res r)) := by
  simp only [runMPI_eq]
  have hw := h.ok (fun _ => hY.some) (fun _ _ g _ _ => g)
  have hw' := h'.ok (fun _ => ψ hY.some) (fun _ _ g _ _ => g)
  rcases loop_map hp h h' hf o hT hF fuel (.start g) with ⟨q, hq, hq'⟩ | ⟨hq, hq'⟩
  · change Runs (fun r : Fin p => loopMPI w' o nT' nF' p r fuel (.start (γ g))) _ at hq'
    rcases q with _ | ⟨st, _ | _ | _⟩
    · exact .inl ⟨none, Runs.bind hq (Runs.pure _), Runs.bind hq' (Runs.pure _)⟩
    · cases hc : st.hasConverged with
      | true =>
        refine .inl ⟨some (st, .finished), Runs.bind hq (Runs.bind runs_sync ?_), Runs.bind hq' (Runs.bind runs_sync ?_)⟩
        · simpa [hc] using Runs.pure _
        · simpa [mapSt, hc] using Runs.pure _
      | false =>
        by_cases h1 : p = 1
        · subst h1
          have h0 : ∀ r : Fin 1, r.val = 0 := fun r => by omega
          left
          refine ⟨some (st, .finished), Runs.bind hq (Runs.bind runs_sync ?_), Runs.bind hq' (Runs.bind runs_sync ?_)⟩
          · have hd := runs_diagnose hp w st.iter st.gpr
            have hm := runs_generateMC hp hw st.iter st.gpr
            simp only [h0] at hd hm
            simp only [h0, hc, and_self, if_true]
            exact Runs.bind hm (Runs.bind hd (Runs.bind runs_sync (Runs.pure _)))
          · have hd := runs_diagnose hp w' st.iter (γ st.gpr)
            have hm := runs_generateMC hp hw' st.iter (γ st.gpr)
            simp only [h0] at hd hm
            simp only [h0, mapSt, hc, and_self, if_true]
            exact Runs.bind hm (Runs.bind hd (Runs.bind runs_sync (Runs.pure _)))
        · right
          have hp1 : 1 < p := by omega
          constructor
          · intro res hr
            rcases reach_total hp (hq.bind_reach _) hr with h2 | h2
            · exact after_stuck hp1 w st hc (res := res) h2
            · have h3 := reach_fin hp h2
              refine after_stuck hp1 w st hc (res := res) ?_
              simp only [h3]
              exact .refl
          · intro res hr
            rcases reach_total hp (hq'.bind_reach _) hr with h2 | h2
            · exact after_stuck hp1 w' (mapSt γ φ st) hc (res := res) h2
            · have h3 := reach_fin hp h2
              refine after_stuck hp1 w' (mapSt γ φ st) hc (res := res) ?_
              exact (congrArg (fun f => Relation.ReflTransGen Step f (fun r => Prog.fin (.ok (res r)))) h3).mpr .refl
    · exact .inl ⟨some (st, .gaveUp), Runs.bind hq (Runs.pure _), Runs.bind hq' (Runs.pure _)⟩
    · exact .inl ⟨some (st, .raised _), Runs.bind hq (Runs.pure _), Runs.bind hq' (Runs.pure _)⟩
  · exact .inr ⟨fun res hr => (hq.bind _).not_runs hp hr, fun res hr => (hq'.bind _).not_runs hp hr⟩

end Map

/-! ## With the modelled regressor, after the initial training -/

section Whole
variable {P PX Θ K V : Type} [Field K] [LinearOrder K] [IsStrictOrderedRing K] [LinearOrder V] [OrderBot V] {p : ℕ}
open Gpr

/-- A run that returns in all the processes, and one whose initial training and components follow it. -/
theorem whole_map (hp : 0 < p) {cfg : Cfg P PX Θ K} {γ : State P PX Θ K → State P PX Θ K} {φ : P → P} {ψ : Ext K → Ext K}
    {w w' : World (State P PX Θ K) P (Ext K) V} {cands cands' : ℕ → State P PX Θ K → List P} {outcomes outcomes' : ℕ → State P PX Θ K → List (Option Bool)}
    (h : Others p w cands outcomes) (h' : Others p w' cands' outcomes') (hf : Follows γ φ ψ w cands outcomes w' cands' outcomes')
    (hT : ∀ g, nTotal cfg (γ g) = nTotal cfg g) (hF : ∀ g, (γ g).yTrain.length = g.yTrain.length)
    (nInitial maxInitial : ℕ) (verbose : ℤ) (draw draw' : ℕ → ℕ → ℕ → P × Ext K) (g : State P PX Θ K)
    (hi : ∀ acc g1, Run.initialTraining cfg p nInitial maxInitial verbose draw g = .ok (acc, g1) →
      ∃ acc', Run.initialTraining cfg p nInitial maxInitial verbose draw' (γ g) = .ok (acc', γ g1))
    (o : Run.Opts) (fuel : ℕ) {g0 : Fin p → State P PX Θ K} {res : Fin p → Option (Run.St (State P PX Θ K) P × Run.Exit)}
    (h1 : Runs (fun r : Fin p => initialMPI cfg p nInitial maxInitial verbose draw g r) fun r => .ok (g0 r))
    (h2 : Runs (fun r : Fin p => runMPI w o (nTotal cfg) (fun g => g.yTrain.length) p fuel (g0 r) r) fun r => .ok (res r)) :
    Runs (fun r : Fin p => initialMPI cfg p nInitial maxInitial verbose draw' (γ g) r) (fun r => .ok (γ (g0 r))) ∧
    Runs (fun r : Fin p => runMPI w' o (nTotal cfg) (fun g => g.yTrain.length) p fuel (γ (g0 r)) r)
      fun r => .ok ((res r).map (Prod.map (mapSt γ φ) id)) := by
  obtain ⟨acc, g1, hs, hg⟩ := initial_returns hp cfg nInitial maxInitial verbose draw _ h1
  obtain ⟨acc', hs'⟩ := hi acc g1 hs
  simp only [hg] at h2 ⊢
  refine ⟨(C77_initial_training_partial hp cfg nInitial maxInitial verbose draw' (γ g)).1 acc' (γ g1) hs', ?_⟩
  haveI : Nonempty (Ext K) := ⟨.nan⟩
  rcases run_map hp h h' hf o (nT := nTotal cfg) (nF := fun g => g.yTrain.length) (nT' := nTotal cfg) (nF' := fun g => g.yTrain.length) hT hF fuel g1 with
    ⟨q, hq, hq'⟩ | ⟨hn, -⟩
  · have he := Runs.det hp h2 hq
    have : ∀ r, res r = q := fun r => by simpa using congrFun he r
    simp only [this]
    exact hq'
  · exact absurd h2 (hn res)

/-- **C143** for any number of processes, run.py:1071-1198, 804-1061: if a run returns, then so does the run with the constant `c` added to the log-posterior: the same
points are evaluated in the same iterations, it ends in the same way, with the same surrogate up to the constant. Nothing is assumed about whether the true
posterior or the fit raise. The likelihoods that the processes compare are functions of the transformed training set (`hl`). -/
theorem C143_run_partial (hp : 0 < p) (cfg : Cfg P PX Θ K) (c : K) (hc : Shift.Equivariant cfg c)
    {w w' : World (State P PX Θ K) P (Ext K) V} {cands cands' : ℕ → State P PX Θ K → List P} {outcomes outcomes' : ℕ → State P PX Θ K → List (Option Bool)}
    (h : Others p w cands outcomes) (h' : Others p w' cands' outcomes') (hu : UsesRegressor cfg w) (hu' : UsesRegressor cfg w')
    (ht : ∀ x, w'.truth x = (w.truth x).map (Shift.shift c)) (hn : w'.nRestarts = w.nRestarts)
    (L : List P → List (Ext K) → List (Ext K) → Option Θ → Option V) (hl : ∀ g, w.lml g = L g.xTrain' g.yTrain' g.noiseVar g.theta)
    (hl' : ∀ g, w'.lml g = L g.xTrain' g.yTrain' g.noiseVar g.theta)
    (hacq : ∀ i g, cands' i (Shift.shiftS c g) = cands i g) (hout : ∀ i g, outcomes' i (Shift.shiftS c g) = outcomes i g)
    (hpol : ∀ i g, (w'.crits i (Shift.shiftS c g)).map Crit.policy = (w.crits i g).map Crit.policy)
    (hd1 : ∀ i g, w'.diag1 i (Shift.shiftS c g) = w.diag1 i g) (hd2 : ∀ i g, w'.diag2 i (Shift.shiftS c g) = w.diag2 i g)
    (nInitial maxInitial : ℕ) (verbose : ℤ) (draw : ℕ → ℕ → ℕ → P × Ext K) (g : State P PX Θ K)
    (o : Run.Opts) (fuel : ℕ) {g0 : Fin p → State P PX Θ K} {res : Fin p → Option (Run.St (State P PX Θ K) P × Run.Exit)}
    (h1 : Runs (fun r : Fin p => initialMPI cfg p nInitial maxInitial verbose draw g r) fun r => .ok (g0 r))
    (h2 : Runs (fun r : Fin p => runMPI w o (nTotal cfg) (fun g => g.yTrain.length) p fuel (g0 r) r) fun r => .ok (res r)) :
    Runs (fun r : Fin p => initialMPI cfg p nInitial maxInitial verbose (fun i r j => ((draw i r j).1, Shift.shift c (draw i r j).2)) (Shift.shiftS c g) r)
      (fun r => .ok (Shift.shiftS c (g0 r))) ∧
    Runs (fun r : Fin p => runMPI w' o (nTotal cfg) (fun g => g.yTrain.length) p fuel (Shift.shiftS c (g0 r)) r)
      fun r => .ok ((res r).map fun q => ({ q.1 with gpr := Shift.shiftS c q.1.gpr }, q.2)) := by
  have hf : Follows (Shift.shiftS c) id (Shift.shift c) w cands outcomes w' cands' outcomes' :=
    { cands := fun i g => by rw [hacq, List.map_id]
      truth := ht
      append := fun i r g xs ys => by
        rw [hu, hu', hn]
        unfold regAppend
        have e : fitCall (w.nRestarts i r) (xs.map id) (ys.map (Shift.shift c)) = Shift.shiftC c (fitCall (w.nRestarts i r) xs ys) := by
          rw [List.map_id]; rfl
        rw [e, Shift.C143_append cfg c hc]
        rcases append cfg g (fitCall (w.nRestarts i r) xs ys) with ⟨g', _ | e⟩ <;> rfl
      nRestarts := fun i r => by rw [hn]
      lml := fun g => by rw [hl, hl']; rfl
      outcomes := hout, policy := hpol, diag1 := hd1, diag2 := hd2 }
  obtain ⟨r1, r2⟩ := whole_map hp h h' hf (fun g => by simp [nTotal, Shift.shiftS]) (fun g => by simp [Shift.shiftS]) nInitial maxInitial verbose draw
    (fun i r j => ((draw i r j).1, Shift.shift c (draw i r j).2)) g (fun acc g1 e => by
      rw [Shift.C143_initial cfg c hc, e]; exact ⟨_, rfl⟩) o fuel h1 h2
  refine ⟨r1, ?_⟩
  have e : (fun q : Run.St (State P PX Θ K) P × Run.Exit => (({ q.1 with gpr := Shift.shiftS c q.1.gpr } : Run.St (State P PX Θ K) P), q.2)) =
      Prod.map (mapSt (Shift.shiftS c) id) id := by
    funext ⟨st, e⟩
    simp [Prod.map, mapSt]
  rw [e]
  exact r2

/-- **C144** for any number of processes: if a run returns, then so does the run in the other units, with the same points in these units, in the same iterations, and
the same end. -/
theorem C144_run_partial (hp : 0 < p) (cfg : Cfg P PX Θ K) (u : P → P) (v : PX → PX) (hc : Units.Equivariant cfg u v)
    {w w' : World (State P PX Θ K) P (Ext K) V} {cands cands' : ℕ → State P PX Θ K → List P} {outcomes outcomes' : ℕ → State P PX Θ K → List (Option Bool)}
    (h : Others p w cands outcomes) (h' : Others p w' cands' outcomes') (hu : UsesRegressor cfg w) (hu' : UsesRegressor cfg w')
    (ht : ∀ x, w'.truth (u x) = w.truth x) (hn : w'.nRestarts = w.nRestarts)
    (L : List P → List (Ext K) → List (Ext K) → Option Θ → Option V) (hl : ∀ g, w.lml g = L g.xTrain' g.yTrain' g.noiseVar g.theta)
    (hl' : ∀ g, w'.lml g = L g.xTrain' g.yTrain' g.noiseVar g.theta)
    (hacq : ∀ i g, cands' i (Units.conv u v g) = (cands i g).map u) (hout : ∀ i g, outcomes' i (Units.conv u v g) = outcomes i g)
    (hpol : ∀ i g, (w'.crits i (Units.conv u v g)).map Crit.policy = (w.crits i g).map Crit.policy)
    (hd1 : ∀ i g, w'.diag1 i (Units.conv u v g) = w.diag1 i g) (hd2 : ∀ i g, w'.diag2 i (Units.conv u v g) = w.diag2 i g)
    (nInitial maxInitial : ℕ) (verbose : ℤ) (draw : ℕ → ℕ → ℕ → P × Ext K) (g : State P PX Θ K)
    (o : Run.Opts) (fuel : ℕ) {g0 : Fin p → State P PX Θ K} {res : Fin p → Option (Run.St (State P PX Θ K) P × Run.Exit)}
    (h1 : Runs (fun r : Fin p => initialMPI cfg p nInitial maxInitial verbose draw g r) fun r => .ok (g0 r))
    (h2 : Runs (fun r : Fin p => runMPI w o (nTotal cfg) (fun g => g.yTrain.length) p fuel (g0 r) r) fun r => .ok (res r)) :
    Runs (fun r : Fin p => initialMPI cfg p nInitial maxInitial verbose (fun i r j => (u (draw i r j).1, (draw i r j).2)) (Units.conv u v g) r)
      (fun r => .ok (Units.conv u v (g0 r))) ∧
    Runs (fun r : Fin p => runMPI w' o (nTotal cfg) (fun g => g.yTrain.length) p fuel (Units.conv u v (g0 r)) r)
      fun r => .ok ((res r).map fun q => ({ q.1 with gpr := Units.conv u v q.1.gpr, evals := q.1.evals.map u }, q.2)) := by
  have hf : Follows (Units.conv u v) u id w cands outcomes w' cands' outcomes' :=
    { cands := hacq
      truth := fun x => by rw [ht]; rcases w.truth x with e | y <;> rfl
      append := fun i r g xs ys => by
        rw [hu, hu', hn]
        unfold regAppend
        have e : fitCall (w.nRestarts i r) (xs.map u) (ys.map id) = Units.convC u (fitCall (w.nRestarts i r) xs ys) := by
          rw [List.map_id]; rfl
        rw [e, Units.C144_append cfg u v hc]
        rcases append cfg g (fitCall (w.nRestarts i r) xs ys) with ⟨g', _ | e⟩ <;> rfl
      nRestarts := fun i r => by rw [hn]
      lml := fun g => by rw [hl, hl']; rfl
      outcomes := hout, policy := hpol, diag1 := hd1, diag2 := hd2 }
  exact whole_map hp h h' hf (fun g => by simp [nTotal, Units.conv]) (fun g => by simp [Units.conv]) nInitial maxInitial verbose draw
    (fun i r j => (u (draw i r j).1, (draw i r j).2)) g (fun acc g1 e => by
      rw [Units.C144_initial cfg u v hc, e]; exact ⟨_, rfl⟩) o fuel h1 h2

/-- **C150** for any number of processes: if a run returns, then so does the run with the parameters in the other order, with the same points in that order, in the same
iterations, and the same end. -/
theorem C150_run_partial (hp : 0 < p) (cfg : Cfg P PX Θ K) (u : P → P) (v : PX → PX) (z : Θ → Θ) (hc : Order.Equivariant cfg u v z)
    {w w' : World (State P PX Θ K) P (Ext K) V} {cands cands' : ℕ → State P PX Θ K → List P} {outcomes outcomes' : ℕ → State P PX Θ K → List (Option Bool)}
    (h : Others p w cands outcomes) (h' : Others p w' cands' outcomes') (hu : UsesRegressor cfg w) (hu' : UsesRegressor cfg w')
    (ht : ∀ x, w'.truth (u x) = w.truth x) (hn : w'.nRestarts = w.nRestarts) (hl : ∀ g, w'.lml (Order.conv u v z g) = w.lml g)
    (hacq : ∀ i g, cands' i (Order.conv u v z g) = (cands i g).map u) (hout : ∀ i g, outcomes' i (Order.conv u v z g) = outcomes i g)
    (hpol : ∀ i g, (w'.crits i (Order.conv u v z g)).map Crit.policy = (w.crits i g).map Crit.policy)
    (hd1 : ∀ i g, w'.diag1 i (Order.conv u v z g) = w.diag1 i g) (hd2 : ∀ i g, w'.diag2 i (Order.conv u v z g) = w.diag2 i g)
    (nInitial maxInitial : ℕ) (verbose : ℤ) (draw : ℕ → ℕ → ℕ → P × Ext K) (g : State P PX Θ K)
    (o : Run.Opts) (fuel : ℕ) {g0 : Fin p → State P PX Θ K} {res : Fin p → Option (Run.St (State P PX Θ K) P × Run.Exit)}
    (h1 : Runs (fun r : Fin p => initialMPI cfg p nInitial maxInitial verbose draw g r) fun r => .ok (g0 r))
    (h2 : Runs (fun r : Fin p => runMPI w o (nTotal cfg) (fun g => g.yTrain.length) p fuel (g0 r) r) fun r => .ok (res r)) :
    Runs (fun r : Fin p => initialMPI cfg p nInitial maxInitial verbose (fun i r j => (u (draw i r j).1, (draw i r j).2)) (Order.conv u v z g) r)
      (fun r => .ok (Order.conv u v z (g0 r))) ∧
    Runs (fun r : Fin p => runMPI w' o (nTotal cfg) (fun g => g.yTrain.length) p fuel (Order.conv u v z (g0 r)) r)
      fun r => .ok ((res r).map fun q => ({ q.1 with gpr := Order.conv u v z q.1.gpr, evals := q.1.evals.map u }, q.2)) := by
  have hf : Follows (Order.conv u v z) u id w cands outcomes w' cands' outcomes' :=
    { cands := hacq
      truth := fun x => by rw [ht]; rcases w.truth x with e | y <;> rfl
      append := fun i r g xs ys => by
        rw [hu, hu', hn]
        unfold regAppend
        have e : fitCall (w.nRestarts i r) (xs.map u) (ys.map id) = Order.convC u (fitCall (w.nRestarts i r) xs ys) := by
          rw [List.map_id]; rfl
        rw [e, Order.C150_append cfg u v z hc]
        rcases append cfg g (fitCall (w.nRestarts i r) xs ys) with ⟨g', _ | e⟩ <;> rfl
      nRestarts := fun i r => by rw [hn]
      lml := hl
      outcomes := hout, policy := hpol, diag1 := hd1, diag2 := hd2 }
  exact whole_map hp h h' hf (fun g => by simp [nTotal, Order.conv]) (fun g => by simp [Order.conv]) nInitial maxInitial verbose draw
    (fun i r j => (u (draw i r j).1, (draw i r j).2)) g (fun acc g1 e => by
      rw [Order.C150_initial cfg u v z hc, e]; exact ⟨_, rfl⟩) o fuel h1 h2

end Whole

/-! ### Examples: two processes -/

namespace RunMapEx
open Gpr

variable {P PX Θ : Type} {p : ℕ}

/-- Both processes take part in the fits of the odd iterations; convergence with `N` points. -/
def exW (cfg : Cfg P PX Θ ℚ) (truth : P → Ext ℚ) (acq : State P PX Θ ℚ → List P) (N : ℕ) : World (State P PX Θ ℚ) P (Ext ℚ) ℕ where
  acquire := fun i r g => share 0 (acq g)
  truth := fun x => .ok (truth x)
  nRestarts := fun i r => if i % 2 = 1 then 1 else 0
  append := fun i r => regAppend cfg (if i % 2 = 1 then 1 else 0)
  lml := fun g => some g.yTrain'.length
  hasCallback := false
  callback := fun i r g => ret ()
  callbackAware := false
  crits := fun i g => [⟨false, .n, fun _ => ret (decide (N ≤ g.yAll.length))⟩]
  sample := fun i r g => sync
  diag1 := fun i g => true
  diag2 := fun i g => some true

def exOut (N : ℕ) (_ : ℕ) (g : State P PX Θ ℚ) : List (Option Bool) := [some (decide (N ≤ g.yAll.length))]

theorem exW_others (hp : 0 < p) (cfg : Cfg P PX Θ ℚ) (truth : P → Ext ℚ) (acq : State P PX Θ ℚ → List P) (N : ℕ) :
    Others p (exW cfg truth acq N) (fun _ => acq) (exOut N) where
  acquire := fun i g => runs_share ⟨0, hp⟩ fun _ => _
  callback := fun i g => by
    have : (fun r : Fin p => (if (exW cfg truth acq N).callbackAware = true ∨ r.val = 0 then (exW cfg truth acq N).callback i r g else pure () :
      Prog Exc Unit)) = fun r => pure () := by
      funext r; split_ifs <;> rfl
    rw [this]; exact Runs.pure _
  crits := fun i g => List.Forall₂.cons (Agreed.mainOk _ rfl rfl) List.Forall₂.nil
  sample := fun i g => runs_sync

def exO : Run.Opts := ⟨3, 6, 14, 14, 2, 1, 1, 2⟩

/-- A run of two processes, computed with the serial model. -/
theorem exW_runs (cfg : Cfg P PX Θ ℚ) (truth : P → Ext ℚ) (acq : State P PX Θ ℚ → List P) (N : ℕ) (draw : ℕ → ℕ → ℕ → P × Ext ℚ) (g0 : State P PX Θ ℚ)
    {α : Type} (f : P → α) (l : List α)
    (h : (Run.initialTraining cfg 2 3 6 3 draw g0).toOption.bind (fun q =>
      (Run.loop exO true (nTotal cfg) (fun g => g.yTrain.length) (serialStepE 2 (exW cfg truth acq N) (fun _ => acq) truth (exOut N)) 20 (.start q.2)).map fun r =>
        (r.2, r.1.evals.map f, r.1.hasConverged)) = some (.finished, l, true)) :
    ∃ g st, Runs (fun r : Fin 2 => initialMPI cfg 2 3 6 3 draw g0 r) (fun _ => .ok g) ∧
      Runs (fun r : Fin 2 => runMPI (exW cfg truth acq N) exO (nTotal cfg) (fun g => g.yTrain.length) 2 20 g r) (fun _ => .ok (some (st, .finished))) ∧
      st.evals.map f = l := by
  rcases hi : Run.initialTraining cfg 2 3 6 3 draw g0 with e | ⟨acc, g⟩
  · rw [hi] at h; simp [Except.toOption] at h
  · rw [hi] at h
    simp only [Except.toOption, Option.bind_some] at h
    rcases hl : Run.loop exO true (nTotal cfg) (fun g => g.yTrain.length) (serialStepE 2 (exW cfg truth acq N) (fun _ => acq) truth (exOut N)) 20 (.start g) with _ | ⟨st, e⟩
    · rw [hl] at h; simp at h
    · rw [hl] at h
      simp only [Option.map_some, Option.some.injEq, Prod.mk.injEq] at h
      obtain ⟨rfl, h1, h2⟩ := h
      haveI : Nonempty (Ext ℚ) := ⟨.nan⟩
      exact ⟨g, st, (C77_initial_training_partial (by decide) _ _ _ _ _ _).1 acc g hi,
        run_serial (by decide) (exW_others (by decide) cfg truth acq N) truth (fun _ _ _ _ => rfl) _ _ _ _ _ hl (by simp) (.inr (.inr h2)), h1⟩

/-- C143: the constant 7, two processes; the candidates depend on the training set. -/
def shAcq (g : State ℚ Unit ℕ ℚ) : List ℚ := [(g.xAll.length : ℚ) + g.theta.getD 0, g.xAll.length]
def shTruth (x : ℚ) : Ext ℚ := .fin (-(x * x) / 10)
def shDraw (i r j : ℕ) : ℚ × Ext ℚ := ((i + 3 * r + j : ℕ), shTruth (i + 3 * r + j : ℕ))

example : ∃ g st st', Runs (fun r : Fin 2 => initialMPI Shift.exCfg 2 3 6 3 shDraw (State.init () .unfitted (.scalar 1)) r) (fun _ => .ok g) ∧
    Runs (fun r : Fin 2 => runMPI (exW Shift.exCfg shTruth shAcq 8) exO (nTotal Shift.exCfg) (fun g => g.yTrain.length) 2 20 g r)
      (fun _ => .ok (some (st, .finished))) ∧
    Runs (fun r : Fin 2 => runMPI (exW Shift.exCfg (fun x => Shift.shift 7 (shTruth x)) shAcq 8) exO (nTotal Shift.exCfg) (fun g => g.yTrain.length) 2 20
      (Shift.shiftS 7 g) r) (fun _ => .ok (some (st', .finished))) ∧ st.evals = [8, 4, 10, 6] ∧ st'.evals = [8, 4, 10, 6] := by
  obtain ⟨g, st, h1, h2, h3⟩ := exW_runs Shift.exCfg shTruth shAcq 8 shDraw (State.init () .unfitted (.scalar 1)) id [8, 4, 10, 6] (by decide +kernel)
  rw [List.map_id] at h3
  obtain ⟨-, h4⟩ := C143_run_partial (by decide) Shift.exCfg 7 (Shift.exCfg_ok 7) (exW_others (by decide) Shift.exCfg shTruth shAcq 8)
    (exW_others (by decide) Shift.exCfg (fun x => Shift.shift 7 (shTruth x)) shAcq 8) (fun _ _ _ _ _ => rfl) (fun _ _ _ _ _ => rfl) (fun _ => rfl) rfl
    (fun _ y _ _ => some y.length) (fun _ => rfl) (fun _ => rfl) (fun _ _ => rfl) (fun _ g => by simp [exOut, Shift.shiftS]) (fun _ _ => rfl) (fun _ _ => rfl) (fun _ _ => rfl)
    3 6 3 shDraw _ exO 20 h1 h2
  exact ⟨g, st, _, h1, h2, h4, h3, h3⟩

/-- C144: in other units (1000 per unit, zero at 5); the candidate lies between the last two points. -/
def midAcq {d : ℕ} {PX Θ : Type} (g : State (Fin d → ℚ) PX Θ ℚ) : List (Fin d → ℚ) := match g.xAll.reverse with
  | x :: y :: _ => [fun i => (x i + y i) / 2]
  | _ => []

def unTruth (x : Fin 1 → ℚ) : Ext ℚ := .fin (-(x 0 * x 0) / 10)
def unDraw (i r j : ℕ) : (Fin 1 → ℚ) × Ext ℚ := (fun _ => (i + 3 * r + j : ℕ), unTruth fun _ => (i + 3 * r + j : ℕ))

theorem midAcq_km (g : State (Fin 1 → ℚ) (Pre.NormBounds 1 ℚ) ℕ ℚ) : midAcq (Units.conv Units.km Units.kmB g) = (midAcq g).map Units.km := by
  unfold midAcq
  rw [show (Units.conv Units.km Units.kmB g).xAll = g.xAll.map Units.km from rfl, ← List.map_reverse]
  rcases g.xAll.reverse with _ | ⟨x, _ | ⟨y, l⟩⟩
  · rfl
  · rfl
  · simp only [List.map_cons, List.map_nil, List.cons.injEq, and_true]
    funext i
    simp only [Units.km, Units.aff]
    ring

example : ∃ g st st', Runs (fun r : Fin 2 => initialMPI Units.exCfg 2 3 6 3 unDraw Units.exInit r) (fun _ => .ok g) ∧
    Runs (fun r : Fin 2 => runMPI (exW Units.exCfg unTruth midAcq 7) exO (nTotal Units.exCfg) (fun g => g.yTrain.length) 2 20 g r)
      (fun _ => .ok (some (st, .finished))) ∧
    Runs (fun r : Fin 2 => runMPI (exW Units.exCfg (fun x => unTruth fun i => (x i - 5) / 1000) midAcq 7) exO (nTotal Units.exCfg) (fun g => g.yTrain.length) 2 20
      (Units.conv Units.km Units.kmB g) r) (fun _ => .ok (some (st', .finished))) ∧
    st.evals.map (· 0) = [7 / 2, 15 / 4, 29 / 8] ∧ st'.evals.map (· 0) = [3505, 3755, 3630] := by
  obtain ⟨g, st, h1, h2, h3⟩ := exW_runs Units.exCfg unTruth midAcq 7 unDraw Units.exInit (· 0) [7 / 2, 15 / 4, 29 / 8] (by decide +kernel)
  obtain ⟨-, h4⟩ := C144_run_partial (by decide) Units.exCfg Units.km Units.kmB Units.exCfg_ok (exW_others (by decide) Units.exCfg unTruth midAcq 7)
    (exW_others (by decide) Units.exCfg (fun x => unTruth fun i => (x i - 5) / 1000) midAcq 7) (fun _ _ _ _ _ => rfl) (fun _ _ _ _ _ => rfl)
    (fun x => by simp [exW, unTruth, Units.km, Units.aff]) rfl
    (fun _ y _ _ => some y.length) (fun _ => rfl) (fun _ => rfl) (fun _ g => midAcq_km g) (fun _ _ => rfl) (fun _ _ => rfl) (fun _ _ => rfl)
    (fun _ _ => rfl) 3 6 3 unDraw _ exO 20 h1 h2
  refine ⟨g, st, _, h1, h2, h4, h3, ?_⟩
  have : (st.evals.map Units.km).map (· 0) = (st.evals.map (· 0)).map fun x : ℚ => 1000 * x + 5 := by
    rw [List.map_map, List.map_map]; rfl
  show (st.evals.map Units.km).map (· 0) = _
  rw [this, h3]
  norm_num

/-- C150: the two parameters exchanged. -/
def orTruth (x : Fin 2 → ℚ) : Ext ℚ := .fin (-(x 0 * x 0) / 10 - x 1 / 20)
def orDraw (i r j : ℕ) : (Fin 2 → ℚ) × Ext ℚ := (![(i + 3 * r + j : ℕ), 10 * r + 4 * j], orTruth ![(i + 3 * r + j : ℕ), 10 * r + 4 * j])

theorem midAcq_sw (g : State (Fin 2 → ℚ) (Pre.NormBounds 2 ℚ) (Fin 2 → ℚ) ℚ) :
    midAcq (Order.conv (Order.re Order.sw) (Order.reN Order.sw) (Order.re Order.sw) g) = (midAcq g).map (Order.re Order.sw) := by
  unfold midAcq
  rw [show (Order.conv (Order.re Order.sw) (Order.reN Order.sw) (Order.re Order.sw) g).xAll = g.xAll.map (Order.re Order.sw) from rfl, ← List.map_reverse]
  rcases g.xAll.reverse with _ | ⟨x, _ | ⟨y, l⟩⟩ <;> rfl

example : ∃ g st st', Runs (fun r : Fin 2 => initialMPI Order.exCfg 2 3 6 3 orDraw Order.exInit r) (fun _ => .ok g) ∧
    Runs (fun r : Fin 2 => runMPI (exW Order.exCfg orTruth midAcq 7) exO (nTotal Order.exCfg) (fun g => g.yTrain.length) 2 20 g r)
      (fun _ => .ok (some (st, .finished))) ∧
    Runs (fun r : Fin 2 => runMPI (exW Order.exCfg (fun x => orTruth (Order.re Order.sw x)) midAcq 7) exO (nTotal Order.exCfg) (fun g => g.yTrain.length) 2 20
      (Order.conv (Order.re Order.sw) (Order.reN Order.sw) (Order.re Order.sw) g) r) (fun _ => .ok (some (st', .finished))) ∧
    st.evals.map (fun x => (x 0, x 1)) = [(7 / 2, 12), (15 / 4, 13), (29 / 8, 25 / 2)] ∧ st'.evals.map (fun x => (x 1, x 0)) = [(7 / 2, 12), (15 / 4, 13), (29 / 8, 25 / 2)] := by
  obtain ⟨g, st, h1, h2, h3⟩ := exW_runs Order.exCfg orTruth midAcq 7 orDraw Order.exInit (fun x => (x 0, x 1)) [(7 / 2, 12), (15 / 4, 13), (29 / 8, 25 / 2)] (by decide +kernel)
  obtain ⟨-, h4⟩ := C150_run_partial (by decide) Order.exCfg _ _ _ Order.exCfg_ok (exW_others (by decide) Order.exCfg orTruth midAcq 7)
    (exW_others (by decide) Order.exCfg (fun x => orTruth (Order.re Order.sw x)) midAcq 7) (fun _ _ _ _ _ => rfl) (fun _ _ _ _ _ => rfl)
    (fun x => congrArg (fun z => Except.ok (orTruth z)) (funext fun i => by simp [Order.re, Order.sw])) rfl (fun _ => rfl) (fun _ g => midAcq_sw g) (fun _ _ => rfl)
    (fun _ _ => rfl) (fun _ _ => rfl) (fun _ _ => rfl) 3 6 3 orDraw _ exO 20 h1 h2
  refine ⟨g, st, _, h1, h2, h4, h3, ?_⟩
  show (st.evals.map (Order.re Order.sw)).map (fun x => (x 1, x 0)) = _
  rw [List.map_map, ← h3]
  congr 1

end RunMapEx

end GPry.Spmd
