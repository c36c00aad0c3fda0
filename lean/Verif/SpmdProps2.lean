import Verif.SpmdProps

set_option linter.all false

/-!
# The runs of all the processes, and the serial model of `Verif/Run.lean`
-/

namespace GPry.Spmd
open Prog
variable {p : ℕ} {G X Y V : Type} [LinearOrder V] [OrderBot V]

/-- What is assumed of the components of a run: they end in all the processes, without an exception (other than
`ConvergenceCheckError`), and the acquisition engine returns the same candidates in all of them. -/
structure WorldOk (p : ℕ) (w : World G X Y V) (cands : ℕ → G → List X) (truth : X → Y)
    (app : ℕ → ℕ → G → List X → List Y → G) (outcomes : ℕ → G → List (Option Bool)) : Prop where
  acquire : ∀ i g, Runs (fun r : Fin p => w.acquire i r g) fun _ => .ok (cands i g)
  truth : ∀ x, w.truth x = .ok (truth x)
  append : ∀ i r g xs ys, w.append i r g xs ys = .ok (app i r g xs ys)
  callback : ∀ i g, Runs (fun r : Fin p => (if w.callbackAware = true ∨ r.val = 0 then w.callback i r g else pure ()))
    fun _ => .ok ()
  crits : ∀ i g, List.Forall₂ (Agreed p) (w.crits i g) (outcomes i g)
  sample : ∀ i g, Runs (fun r : Fin p => w.sample i r g) fun _ => .ok ()

/-- The surrogate after the fit of iteration `i`: that of the process with the best likelihood. -/
def newGpr (p : ℕ) (w : World G X Y V) (cands : ℕ → G → List X) (truth : X → Y)
    (app : ℕ → ℕ → G → List X → List Y → G) (i : ℕ) (g : G) : G :=
  app i (Run.bestRank p (w.nRestarts i) fun r => w.lml (app i r g (cands i g) ((cands i g).map truth))) g (cands i g)
    ((cands i g).map truth)

/-- What the components amount to in the serial model. -/
def serialStep (p : ℕ) (w : World G X Y V) (cands : ℕ → G → List X) (truth : X → Y)
    (app : ℕ → ℕ → G → List X → List Y → G) (outcomes : ℕ → G → List (Option Bool)) (i : ℕ) (g : G) :
    Run.Step G X where
  cands := cands i g
  fit := fun g => .ok (newGpr p w cands truth app i g)
  conv :=
    let g' := newGpr p w cands truth app i g
    Run.checkConvergence (((w.crits i g').map Crit.policy).zip (outcomes i g'))
  diag :=
    let g' := newGpr p w cands truth app i g
    w.diag1 i g' && (w.diag2 i g').getD true

theorem runs_updateMeanCov (hp : 0 < p) : Runs (fun _ : Fin p => updateMeanCov) fun _ => .ok () :=
  Runs.bind (runs_share ⟨0, hp⟩ fun _ => ()) (runs_share ⟨0, hp⟩ fun _ => ())

theorem runs_progressSync (hp : 0 < p) : ∀ n, Runs (fun _ : Fin p => progressSync n) fun _ => .ok ()
  | 0 => runs_sync
  | n + 1 => Runs.bind (runs_collect fun _ => ()) (Runs.bind (runs_share ⟨0, hp⟩ fun _ => ()) (runs_progressSync hp n))

theorem runs_diagnose (hp : 0 < p) (w : World G X Y V) (i : ℕ) (g : G) :
    Runs (fun r : Fin p => diagnose w i r g) fun _ => .ok (w.diag1 i g && (w.diag2 i g).getD true) := by
  refine Runs.bind (runs_share ⟨0, hp⟩ fun r => if r.val = 0 then w.diag1 i g else false) ?_
  cases w.diag2 i g with
  | none => simpa using Runs.pure (p := p) (E := Exc) (fun _ => w.diag1 i g)
  | some b =>
    simpa using runs_share (E := Exc) (⟨0, hp⟩ : Fin p) fun r => if r.val = 0 then w.diag1 i g && b else false

section Ok
variable {w : World G X Y V} {cands : ℕ → G → List X} {truth : X → Y}
    {app : ℕ → ℕ → G → List X → List Y → G} {outcomes : ℕ → G → List (Option Bool)}

theorem runs_generateMC (hp : 0 < p) (h : WorldOk p w cands truth app outcomes) (i : ℕ) (g : G) :
    Runs (fun r : Fin p => generateMC w i r g) fun _ => .ok () :=
  Runs.bind (h.sample i g) (Runs.bind (runs_share ⟨0, hp⟩ fun _ => ()) (runs_updateMeanCov hp))

theorem runs_callback (h : WorldOk p w cands truth app outcomes) (i : ℕ) (g : G) :
    Runs (fun r : Fin p => callbackMPI w i r g) fun _ => .ok () := by
  unfold callbackMPI
  by_cases hc : w.hasCallback = true
  · simp only [if_pos hc]
    exact Runs.bind (h.callback i g) runs_sync
  · simp only [if_neg hc]
    exact Runs.pure _

theorem runs_check (hp : 0 < p) (h : WorldOk p w cands truth app outcomes) (i : ℕ) (g : G) :
    Runs (fun r : Fin p => checkConvergenceMPI r (w.crits i g) [])
      fun _ => .ok (Run.checkConvergence (((w.crits i g).map Crit.policy).zip (outcomes i g))) := by
  have hl := (h.crits i g).length_eq
  have := C37_check_convergence hp ((w.crits i g).zip (outcomes i g)) (by
    rintro ⟨c, o⟩ hc
    exact (List.forall₂_iff_zip.1 (h.crits i g)).2 hc)
  rw [List.map_fst_zip (by omega)] at this
  refine cast ?_ this
  congr 1
  funext _
  congr 2
  rw [List.zip_map_left]
  apply List.map_congr_left
  rintro ⟨c, o⟩ -
  rfl

/-- One iteration in all the processes does what the serial model says, with the same result everywhere. -/
theorem runs_iterate (hp : 0 < p) (h : WorldOk p w cands truth app outcomes) (o : Run.Opts) (st : Run.St G X) :
    Runs (fun r : Fin p => iterateMPI w o p r st)
      fun _ => .ok (Run.iterate o true (serialStep p w cands truth app outcomes st.iter st.gpr) st) := by
  refine Runs.bind runs_sync (Runs.bind (h.acquire st.iter st.gpr) ?_)
  unfold Run.iterate
  dsimp only [serialStep]
  by_cases hc : ((cands st.iter st.gpr).length : ℤ) < max 1 (o.nAcq / 2)
  · simp only [if_pos hc]
    by_cases hr : o.nResamples < (st.resamples + 1 : ℕ)
    · simp only [if_pos hr]
      refine Runs.bind (runs_share ⟨0, hp⟩ fun r => if r.val = 0 then true else false) ?_
      simpa using Runs.pure _
    · simp only [if_neg hr]
      refine Runs.bind (runs_share ⟨0, hp⟩ fun r => false) ?_
      simpa using Runs.pure _
  · simp only [if_neg hc]
    refine Runs.bind runs_sync (Runs.bind (C03_eval_truth_mpi hp (fun x _ => h.truth x)) (Runs.bind runs_sync ?_))
    have hf : Runs (fun r : Fin p => fitMPI r (w.nRestarts st.iter r)
        (w.append st.iter r st.gpr (cands st.iter st.gpr) ((cands st.iter st.gpr).map truth)) w.lml st.gpr)
        fun _ => .ok (newGpr p w cands truth app st.iter st.gpr) := by
      simp only [h.append]
      exact C39_fit_mpi hp (w.nRestarts st.iter)
        (fun r => app st.iter r st.gpr (cands st.iter st.gpr) ((cands st.iter st.gpr).map truth)) w.lml st.gpr
    refine Runs.bind hf (Runs.bind runs_sync (Runs.bind (runs_share ⟨0, hp⟩ fun _ => ())
      (Runs.bind (runs_callback h st.iter _) (Runs.bind runs_sync (Runs.bind (runs_check hp h st.iter _)
        (Runs.bind runs_sync (Runs.bind (runs_share ⟨0, hp⟩ fun _ => _) (Runs.bind runs_sync
          (Runs.bind (runs_updateMeanCov hp) ?_)))))))))
    split_ifs with hconv
    · exact Runs.bind (runs_generateMC hp h st.iter _) (Runs.bind (runs_diagnose hp w st.iter _)
        (Runs.bind runs_sync (Runs.bind (runs_progressSync hp 9) (Runs.pure _))))
    · simp only [Bool.not_eq_true] at hconv
      simp only [hconv]
      exact Runs.bind (runs_progressSync hp 9) (Runs.pure _)

theorem iterate_no_raise (o : Run.Opts) (i : ℕ) (g : G) (st : Run.St G X) (e : Run.RErr) :
    (Run.iterate o true (serialStep p w cands truth app outcomes i g) st).2 ≠ .raise e := by
  unfold Run.iterate serialStep
  dsimp only
  split_ifs <;> simp_all

/-- **C32, C33, C54** for several processes: the loop run by `p` processes is the serial one (`Run.loop`, about which
`Run.C32_…`, `Run.C33_…` speak), with the same result in all of them. -/
theorem C54_loop_mpi (hp : 0 < p) (h : WorldOk p w cands truth app outcomes) (o : Run.Opts) (nT nF : G → ℕ) :
    ∀ (fuel : ℕ) (st : Run.St G X), Runs (fun r : Fin p => loopMPI w o nT nF p r fuel st)
      fun _ => .ok (Run.loop o true nT nF (serialStep p w cands truth app outcomes) fuel st)
  | 0, st => Runs.pure _
  | fuel + 1, st => by
    unfold loopMPI Run.loop
    split_ifs with hw
    · refine Runs.bind (runs_iterate hp h o st) ?_
      have hn := iterate_no_raise (p := p) (w := w) (cands := cands) (truth := truth) (app := app) (outcomes := outcomes)
        o st.iter st.gpr st
      rcases hx : Run.iterate o true (serialStep p w cands truth app outcomes st.iter st.gpr) st with ⟨st', c⟩
      rw [hx] at hn
      cases c with
      | next => exact C54_loop_mpi hp h o nT nF fuel st'
      | break_ => exact Runs.pure _
      | raise e => exact absurd rfl (hn e)
    · exact Runs.pure _

/-- **C75**, the part that holds: if the loop ends because the run converged, or gave up finding candidates, or if there
is only one process, then all the processes return. -/
theorem C75_run_partial (hp : 0 < p) (h : WorldOk p w cands truth app outcomes) (o : Run.Opts) (nT nF : G → ℕ) (fuel : ℕ)
    (g : G) {st : Run.St G X} {e : Run.Exit}
    (hl : Run.loop o true nT nF (serialStep p w cands truth app outcomes) fuel (.start g) = some (st, e))
    (hc : p = 1 ∨ e = .gaveUp ∨ st.hasConverged = true) :
    Runs (fun r : Fin p => runMPI w o nT nF p fuel g r) fun _ => .ok (some (st, e)) := by
  have h1 := C54_loop_mpi hp h o nT nF fuel (.start g)
  rw [hl] at h1
  refine Runs.bind h1 ?_
  cases e with
  | gaveUp => exact Runs.pure _
  | raised e' => exact Runs.pure _
  | finished =>
    refine Runs.bind runs_sync ?_
    cases hst : st.hasConverged with
    | true => simpa using Runs.pure _
    | false =>
      rcases hc with rfl | hc | hc
      · have : ∀ r : Fin 1, r.val = 0 := fun r => by omega
        simp only [this, true_and, if_true]
        have hd := runs_diagnose hp w st.iter st.gpr
        have hm := runs_generateMC hp h st.iter st.gpr
        simp only [this] at hd hm
        exact Runs.bind hm (Runs.bind hd (Runs.bind runs_sync (Runs.pure _)))
      · simp at hc
      · rw [hst] at hc; simp at hc

/-- **C75**, negation: with more than one process, if the loop ends because the budget is exhausted without convergence,
the processes deadlock: the main one takes part in the collective calls of the final sample and of the diagnosis, while
the others have returned. (Unless the sampler raises before communicating in the main process.) -/
theorem C75_unconverged_deadlocks (hp : 1 < p) (h : WorldOk p w cands truth app outcomes) (o : Run.Opts) (nT nF : G → ℕ)
    (fuel : ℕ) (g : G) {st : Run.St G X}
    (hl : Run.loop o true nT nF (serialStep p w cands truth app outcomes) fuel (.start g) = some (st, .finished))
    (hc : st.hasConverged = false) (hs : ∀ e, w.sample st.iter 0 st.gpr ≠ raise e) :
    Deadlocks (fun r : Fin p => runMPI w o nT nF p fuel g r) := by
  have h1 := C54_loop_mpi (by omega) h o nT nF fuel (.start g)
  rw [hl] at h1
  refine Runs.bind_deadlocks h1 (Runs.bind_deadlocks runs_sync ?_)
  refine deadlocks_of_kinds ⟨0, by omega⟩ ⟨1, hp⟩ ?_
  simp only [hc, and_self, if_true, one_ne_zero, false_and, if_false]
  unfold generateMC
  cases hw : w.sample st.iter 0 st.gpr with
  | raise e => exact absurd hw (hs e)
  | ret a => intro hh; cases hh
  | barrier k => intro hh; cases hh
  | bcast root m k => intro hh; cases hh
  | gather m k => intro hh; cases hh
  | allgather m k => intro hh; cases hh

end Ok

/-! ### An example: the surrogate is the number of points -/

/-- Fails before there are 4 points, satisfied from 6 points on (or never). -/
def exCrit (never : Bool) (g : ℕ) : Crit :=
  ⟨false, .n, fun _ => if g < 4 then raise (.conv "few points") else ret (!never && decide (6 ≤ g))⟩

/-- One candidate per iteration. -/
def exWorld (never : Bool) : World ℕ ℕ ℕ ℕ where
  acquire := fun i r g => share 0 [i + 10]
  truth := fun x => .ok (x * x)
  nRestarts := fun i r => if i % 2 = 0 then 1 else 0
  append := fun i r g xs ys => .ok (g + xs.length)
  lml := fun g => some g
  hasCallback := true
  callback := fun i r g => ret ()
  callbackAware := false
  crits := fun i g => [exCrit never g]
  sample := fun i r g => sync
  diag1 := fun i g => true
  diag2 := fun i g => some (decide (7 ≤ g))

theorem exWorld_ok (hp : 0 < p) (never : Bool) : WorldOk p (exWorld never) (fun i _ => [i + 10]) (fun x => x * x)
    (fun i r g xs ys => g + xs.length)
    (fun i g => [if g < 4 then none else some (!never && decide (6 ≤ g))]) where
  acquire := fun i g => runs_share ⟨0, hp⟩ fun _ => [i + 10]
  truth := fun _ => rfl
  append := fun _ _ _ _ _ => rfl
  callback := fun i g => by
    simp only [exWorld, Bool.false_eq_true, false_or]
    have := runs_main_only (d := ()) hp (f := fun r => (ret () : Prog Exc Unit)) (x := .ok ()) (fun _ _ => rfl)
    refine cast ?_ this
    congr 1
    funext r; split_ifs <;> rfl
  crits := fun i g => by
    show List.Forall₂ (Agreed p) [exCrit never g] _
    refine List.Forall₂.cons ?_ List.Forall₂.nil
    by_cases hg : g < 4
    · rw [if_pos hg]
      exact Agreed.mainFail "few points" rfl (by simp [exCrit, hg])
    · rw [if_neg hg]
      exact Agreed.mainOk _ rfl (by simp [exCrit, hg])
  sample := fun i g => runs_sync

/-- C75: with three processes the run that converges (at seven points, when the diagnosis is passed) ends in all. -/
example : ∃ st, st.hasConverged = true ∧ st.evals = [10, 11, 12, 13, 14] ∧
    Runs (fun r : Fin 3 => runMPI (exWorld false) ⟨2, 3, 9, 9, 1, 2, 1, 2⟩ id id 3 100 2 r)
      fun _ => .ok (some (st, .finished)) :=
  ⟨⟨7, true, 0, 5, [.evaluated 5 1 true true, .evaluated 4 1 true false, .evaluated 3 1 false false,
      .evaluated 2 1 false false, .evaluated 1 1 false false], [10, 11, 12, 13, 14]⟩, rfl, rfl,
    C75_run_partial (by decide) (exWorld_ok (by decide) false) _ _ _ _ _ (by rfl) (.inr (.inr rfl))⟩

/-- C75: the one that never converges hangs after its last iteration. -/
example : Deadlocks (fun r : Fin 3 => runMPI (exWorld true) ⟨2, 3, 4, 4, 1, 2, 1, 2⟩ id id 3 100 2 r) :=
  C75_unconverged_deadlocks (by decide) (exWorld_ok (by decide) true) _ _ _ _ _
    (st := ⟨4, false, 0, 2, [.evaluated 2 1 false false, .evaluated 1 1 false false], [10, 11]⟩) (by rfl) rfl
    (by intro e; simp [exWorld, sync])

/-- The loop of three processes is that of one. -/
example (st : Run.St ℕ ℕ) : ∃ x, Runs (fun r : Fin 3 => loopMPI (exWorld false) ⟨2, 3, 9, 9, 1, 2, 1, 2⟩ id id 3 r 100 st) fun _ => .ok x :=
  ⟨_, C54_loop_mpi (by decide) (exWorld_ok (by decide) false) _ _ _ 100 st⟩

end GPry.Spmd
