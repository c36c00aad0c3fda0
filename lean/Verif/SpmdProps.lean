import Verif.SpmdRun
import Verif.RunProps2
import Verif.MpiProps

set_option linter.all false

namespace GPry.Spmd
open Prog
variable {p : ℕ}

/-! ## C37: convergence check -/

theorem any_ofFn_false {f : Fin p → Bool} (h : ∀ r, f r = false) : (List.ofFn f).any id = false := by
  rw [List.any_eq_false]
  intro x hx
  rw [List.mem_ofFn] at hx
  obtain ⟨r, rfl⟩ := hx
  simp [h r]

theorem any_ofFn_true {f : Fin p → Bool} (r : Fin p) (h : f r = true) : (List.ofFn f).any id = true := by
  rw [List.any_eq_true]
  exact ⟨true, by rw [List.mem_ofFn]; exact ⟨r, h⟩, rfl⟩

theorem filterMap_ofFn_head {α : Type} : ∀ {p : ℕ} {f : Fin p → Option α} (r : Fin p) (m : α), f r = some m →
    (∀ s < r, f s = none) → ∃ t, (List.ofFn f).filterMap id = m :: t := by
  intro p
  induction p with
  | zero => intro f r; exact r.elim0
  | succ n ih =>
    intro f r m hr hs
    rw [List.ofFn_succ]
    refine Fin.cases ?_ ?_ r (motive := fun r => f r = some m → (∀ s < r, f s = none) → _) hr hs
    · intro h0 _
      exact ⟨_, by rw [List.filterMap_cons, h0]; rfl⟩
    · intro r hr hs
      have h0 : f 0 = none := hs 0 (Fin.succ_pos r)
      obtain ⟨t, ht⟩ := ih (f := fun i => f i.succ) r m hr (fun s hsr => hs _ (Fin.succ_lt_succ_iff.2 hsr))
      exact ⟨t, by rw [List.filterMap_cons, h0]; exact ht⟩

theorem isConverged_core (hp : 0 < p) {aware : Bool} {check : Fin p → Prog Exc Bool}
    {q : Fin p → Bool × Option Bool × Option String}
    (h : Runs (fun r : Fin p => if aware = true ∨ r.val = 0 then guarded (check r) else ret (false, none, none))
      fun r => .ok (q r)) :
    ((∀ r, (q r).1 = false) →
      Runs (fun r : Fin p => isConvergedMPI aware r (check r)) fun _ => .ok (q ⟨0, hp⟩).2.1) ∧
    (∀ r0 m, (q r0).1 = true → (q r0).2.2 = some m → (∀ r < r0, (q r).2.2 = none) →
      Runs (fun r : Fin p => isConvergedMPI aware r (check r)) fun _ => .error (.conv m)) := by
  constructor
  · intro hf
    refine Runs.bind runs_sync (Runs.bind h (Runs.bind (runs_collectAll fun r => (q r).1) ?_))
    simp only [any_ofFn_false hf, Bool.false_eq_true, if_false]
    exact runs_share ⟨0, hp⟩ fun r => (q r).2.1
  · intro r0 m h1 h2 h3
    refine Runs.bind runs_sync (Runs.bind h (Runs.bind (runs_collectAll fun r => (q r).1) ?_))
    simp only [any_ofFn_true (f := fun r => (q r).1) r0 h1, if_true]
    refine Runs.bind (runs_collectAll fun r => (q r).2.2) ?_
    obtain ⟨t, ht⟩ := filterMap_ofFn_head r0 m h2 h3
    simp only [ht]
    exact Runs.raise _

/-- Outcome of the guarded check. -/
def enc : Except Exc Bool → Bool × Option Bool × Option String
  | .ok b => (false, some b, none)
  | .error (.conv m) => (true, none, some m)
  | .error _ => (false, none, none)

theorem runs_guarded {check : Fin p → Prog Exc Bool} {res : Fin p → Except Exc Bool} (h : Runs check res)
    (hc : ∀ r e, res r = .error e → ∃ m, e = .conv m) :
    Runs (fun r => guarded (check r)) fun r => .ok (enc (res r)) := by
  refine h.cont ?_
  have : ∀ r, caught (res r) = ret (enc (res r)) := by
    intro r
    cases hr : res r with
    | ok b => rfl
    | error e =>
      obtain ⟨m, rfl⟩ := hc r e hr
      rfl
  simp only [this]
  exact Runs.ret _

/-- **C37** for a criterion that uses several processes itself (and whose own communication ends in all of them).  If it
returns everywhere, all the processes return the value found by the main one.  If it raises `ConvergenceCheckError` in
some process, then all raise it, with the message of the raising process of lowest rank.  In both cases no process is
left waiting. -/
theorem C37_aware (hp : 0 < p) {check : Fin p → Prog Exc Bool} {res : Fin p → Except Exc Bool} (h : Runs check res)
    (hc : ∀ r e, res r = .error e → ∃ m, e = .conv m) :
    (∀ b : Fin p → Bool, (∀ r, res r = .ok (b r)) →
      Runs (fun r : Fin p => isConvergedMPI true r (check r)) fun _ => .ok (some (b ⟨0, hp⟩))) ∧
    (∀ r0 m, res r0 = .error (.conv m) → (∀ r < r0, ∃ b, res r = .ok b) →
      Runs (fun r : Fin p => isConvergedMPI true r (check r)) fun _ => .error (.conv m)) := by
  have hg : Runs (fun r : Fin p => if true = true ∨ r.val = 0 then guarded (check r) else ret (false, none, none))
      fun r => .ok (enc (res r)) := by
    simpa using runs_guarded h hc
  obtain ⟨h1, h2⟩ := isConverged_core hp hg
  constructor
  · intro b hb
    have := h1 (fun r => by rw [hb r]; rfl)
    rwa [hb] at this
  · intro r0 m hr hlt
    refine h2 r0 m (by rw [hr]; rfl) (by rw [hr]; rfl) ?_
    intro r hr'
    obtain ⟨b, hb⟩ := hlt r hr'
    rw [hb]; rfl

theorem runs_main_only {A : Type} (hp : 0 < p) {f : Fin p → Prog Exc A} {x : Except Exc A} {d : A}
    (hf : ∀ r : Fin p, r.val = 0 → f r = Prog.fin x) :
    Runs (fun r : Fin p => if r.val = 0 then f r else ret d) fun r => if r.val = 0 then x else .ok d := by
  have : (fun r : Fin p => if r.val = 0 then f r else ret d) =
      fun r : Fin p => Prog.fin (if r.val = 0 then x else .ok d) := by
    funext r
    by_cases hr : r.val = 0
    · rw [if_pos hr, if_pos hr, hf r hr]
    · rw [if_neg hr, if_neg hr]; rfl
  rw [this]
  exact Runs.fin _

/-- **C37** for a criterion evaluated by the main process only. -/
theorem C37_not_aware (hp : 0 < p) {check : Fin p → Prog Exc Bool} {x : Except Exc Bool}
    (h : check ⟨0, hp⟩ = Prog.fin x) :
    (∀ b, x = .ok b → Runs (fun r : Fin p => isConvergedMPI false r (check r)) fun _ => .ok (some b)) ∧
    (∀ m, x = .error (.conv m) →
      Runs (fun r : Fin p => isConvergedMPI false r (check r)) fun _ => .error (.conv m)) := by
  have hg : (∀ e, x = .error e → ∃ m, e = .conv m) →
      Runs (fun r : Fin p => if false = true ∨ r.val = 0 then guarded (check r) else ret (false, none, none))
      fun r => .ok (if r.val = 0 then enc x else (false, none, none)) := by
    intro hx
    have := runs_main_only (d := (false, none, none)) hp (f := fun r => guarded (check r)) (x := .ok (enc x)) (by
      intro r hr
      have hr' : r = ⟨0, hp⟩ := Fin.ext hr
      rw [hr', h]
      unfold guarded
      rw [cont_fin]
      cases x with
      | ok b => rfl
      | error e => obtain ⟨m, rfl⟩ := hx e rfl; rfl)
    have he : (fun r : Fin p => (if r.val = 0 then .ok (enc x) else .ok (false, none, none) :
        Except Exc (Bool × Option Bool × Option String))) =
        fun r => .ok (if r.val = 0 then enc x else (false, none, none)) := by
      funext r; split_ifs <;> rfl
    rw [he] at this
    simpa using this
  constructor
  · rintro b rfl
    have := (isConverged_core hp (hg (by simp))).1 (fun r => by split_ifs <;> rfl)
    simpa [enc] using this
  · rintro m rfl
    exact (isConverged_core hp (hg (by simp))).2 ⟨0, hp⟩ m (by simp [enc]) (by simp [enc])
      (fun r hr => absurd hr (by simp [Fin.lt_def]))

/-- **C37**, what is not guaranteed: if a criterion raises anything but `ConvergenceCheckError` in one process and not in
another one, the processes deadlock.  (With a criterion evaluated by the main process only: always, if there is more than
one process.) -/
theorem C37_other_exception_deadlocks {check : Fin p → Prog Exc Bool} {res : Fin p → Except Exc Bool}
    (h : Runs check res) (r s : Fin p) (e : Exc) (hr : res r = .error e) (he : ∀ m, e ≠ .conv m)
    (hs : ∀ e, res s = .error e → ∃ m, e = .conv m) :
    Deadlocks (fun r : Fin p => isConvergedMPI true r (check r)) := by
  refine Runs.bind_deadlocks runs_sync ?_
  simp only [true_or, if_true]
  refine Deadlocks.of_reach (reach_cont _ (h.reach_cont _)) ?_
  refine deadlocks_of_kinds r s ?_
  have h1 : ∀ k : Except Exc _ → Prog Exc (Option Bool), (∀ e, k (.error e) = raise e) →
      (Prog.cont k (caught (res r))).kind = .ended := by
    intro k hk
    rw [hr]
    cases e with
    | conv m => exact absurd rfl (he m)
    | attr => show (k (.error _)).kind = _; rw [hk]; rfl
    | other n => show (k (.error _)).kind = _; rw [hk]; rfl
  have h2 : ∀ k : Except Exc _ → Prog Exc (Option Bool), (∀ a, (k (.ok a)).kind = .allgather) →
      (Prog.cont k (caught (res s))).kind = .allgather := by
    intro k hk
    cases hx : res s with
    | ok b => exact hk _
    | error e => obtain ⟨m, rfl⟩ := hs e hx; exact hk _
  rw [h1 _ (fun _ => rfl), h2 _ (fun _ => rfl)]
  decide

theorem C37_main_exception_deadlocks (hp : 1 < p) {check : Fin p → Prog Exc Bool} {e : Exc}
    (h : check ⟨0, by omega⟩ = raise e) (he : ∀ m, e ≠ .conv m) :
    Deadlocks (fun r : Fin p => isConvergedMPI false r (check r)) := by
  refine Runs.bind_deadlocks runs_sync ?_
  refine deadlocks_of_kinds ⟨0, by omega⟩ ⟨1, hp⟩ ?_
  simp only [Bool.false_eq_true, false_or, one_ne_zero, if_false, if_true, h]
  cases e with
  | conv m => exact absurd rfl (he m)
  | attr => intro hh; cases hh
  | other n => intro hh; cases hh

/-- What a criterion comes to: value found by the main process, or `none` if it fails (in any process). -/
inductive Agreed (p : ℕ) (c : Crit) : Option Bool → Prop
  | awareOk (res : Fin p → Bool) (hp : 0 < p) : c.aware = true → Runs (fun r : Fin p => c.check r) (fun r => .ok (res r)) →
      Agreed p c (some (res ⟨0, hp⟩))
  | awareFail (res : Fin p → Except Exc Bool) : c.aware = true → Runs (fun r : Fin p => c.check r) res →
      (∀ r e, res r = .error e → ∃ m, e = .conv m) → (∃ r e, res r = .error e) → Agreed p c none
  | mainOk (b : Bool) : c.aware = false → c.check 0 = ret b → Agreed p c (some b)
  | mainFail (m : String) : c.aware = false → c.check 0 = raise (.conv m) → Agreed p c none

theorem runs_isConverged (hp : 0 < p) {c : Crit} {o : Option Bool} (h : Agreed p c o) :
    (∃ b, o = some b ∧ Runs (fun r : Fin p => isConvergedMPI c.aware r (c.check r)) fun _ => .ok (some b)) ∨
    (o = none ∧ ∃ m, Runs (fun r : Fin p => isConvergedMPI c.aware r (c.check r)) fun _ => .error (.conv m)) := by
  cases h with
  | awareOk res _ ha hr =>
    rw [ha]
    exact .inl ⟨_, rfl, (C37_aware hp hr (by simp)).1 res (fun _ => rfl)⟩
  | awareFail res ha hr hc hf =>
    rw [ha]
    -- the failing process of lowest rank
    have : ∃ r0 : Fin p, (∃ e, res r0 = .error e) ∧ ∀ r < r0, ∃ b, res r = .ok b := by
      obtain ⟨r, e, hre⟩ := hf
      induction r using WellFoundedLT.induction generalizing e with
      | ind r ih =>
        by_cases hlt : ∀ s < r, ∃ b, res s = .ok b
        · exact ⟨r, ⟨e, hre⟩, hlt⟩
        · simp only [not_forall] at hlt
          obtain ⟨s, hs, hn⟩ := hlt
          cases hx : res s with
          | ok b => exact absurd ⟨b, hx⟩ hn
          | error e' => exact ih s hs e' hx
    obtain ⟨r0, ⟨e, he⟩, hlt⟩ := this
    obtain ⟨m, rfl⟩ := hc r0 e he
    exact .inr ⟨rfl, m, (C37_aware hp hr hc).2 r0 m he hlt⟩
  | mainOk b ha hb =>
    rw [ha]
    exact .inl ⟨b, rfl, (C37_not_aware hp (check := fun r => c.check r) (x := .ok b) hb).1 b rfl⟩
  | mainFail m ha hb =>
    rw [ha]
    exact .inr ⟨rfl, m, (C37_not_aware hp (check := fun r => c.check r) (x := .error (.conv m)) hb).2 m rfl⟩

theorem runs_crit (hp : 0 < p) {c : Crit} {o : Option Bool} (h : Agreed p c o) :
    Runs (fun r : Fin p => critMPI r c) fun _ => .ok (c.policy, o) := by
  have h1 : Runs (fun r : Fin p => (isConvergedMPI c.aware r (c.check r)).cont fun
    | .ok b => ret b
    | .error (.conv _) => ret none
    | .error e => raise e) fun _ => .ok o := by
    rcases runs_isConverged hp h with ⟨b, rfl, hb⟩ | ⟨rfl, m, hm⟩
    · exact hb.cont (Runs.ret _)
    · exact hm.cont (Runs.ret _)
  refine Runs.bind h1 (Runs.bind (runs_share ⟨0, hp⟩ fun r => if c.aware = true ∨ r.val = 0 then some c.policy else none) ?_)
  simp only [or_true, if_true]
  exact Runs.ret _

/-- **C37** for the whole check: all the processes get the same answer, the one that the criteria, as agreed on, give
when combined as documented (`Run.C34_policies`). -/
theorem C37_check_convergence (hp : 0 < p) (cs : List (Crit × Option Bool)) (h : ∀ c ∈ cs, Agreed p c.1 c.2) :
    Runs (fun r : Fin p => checkConvergenceMPI r (cs.map Prod.fst) [])
      fun _ => .ok (Run.checkConvergence (cs.map fun c => (c.1.policy, c.2))) := by
  have : ∀ (cs : List (Crit × Option Bool)) (acc : List (Run.Policy × Option Bool)), (∀ c ∈ cs, Agreed p c.1 c.2) →
      Runs (fun r : Fin p => checkConvergenceMPI r (cs.map Prod.fst) acc)
        fun _ => .ok (Run.checkConvergence (acc.reverse ++ cs.map fun c => (c.1.policy, c.2))) := by
    intro cs
    induction cs with
    | nil => intro acc _; simpa [checkConvergenceMPI] using Runs.pure _
    | cons c cs ih =>
      intro acc h
      refine Runs.bind (runs_crit hp (h c (by simp))) ?_
      have := ih ((c.1.policy, c.2) :: acc) (fun d hd => h d (by simp [hd]))
      simpa using this
  simpa using this cs [] h

/-! ### The Gaussian KL criterion -/

/-- **C37** for mean and covariance taken from the acquisition object: whatever the main process finds, all the processes
return it, or raise the same exception. -/
theorem C37_mean_cov_from_acquisition {M : Type} (hp : 0 < p) (sample : Unit ⊕ (String ⊕ M)) :
    Runs (fun r : Fin p => meanCovFromAcquisition r sample) fun _ => match sample with
      | .inl _ => .error .attr
      | .inr (.inl e) => .error (.conv e)
      | .inr (.inr m) => .ok m := by
  refine Runs.bind (runs_share ⟨0, hp⟩ _) ?_
  cases sample with
  | inl u => simpa using Runs.raise _
  | inr s =>
    simp only [if_true, Bool.false_eq_true, if_false]
    refine Runs.bind (runs_share ⟨0, hp⟩ fun r => if r.val = 0 then (match (Sum.inr s : Unit ⊕ (String ⊕ M)) with
      | .inr (.inl e) => some e | _ => none) else none) ?_
    cases s with
    | inl e => simpa using Runs.raise _
    | inr m =>
      simp only [if_true]
      refine Runs.bind (runs_share ⟨0, hp⟩ fun r => if r.val = 0 then (match (Sum.inr (Sum.inr m) : Unit ⊕ (String ⊕ M)) with
        | .inr (.inr e) => some e | _ => none) else none) ?_
      simp only [if_true]
      exact Runs.ret _

/-- **C37** for mean and covariance from an MC run, partial: if comparing with the reweighted sample does not fail. -/
theorem C37_mean_cov_from_mc_partial {M : Type} (hp : 0 < p) (reuse : Option M) (success : Fin p → Bool) (new : M) :
    Runs (fun r : Fin p => meanCovFromMC r (.ok reuse) (success r) new) fun _ =>
      match reuse with
      | some m => .ok m
      | none => if ∀ r, success r = true then .ok new else .error (.conv "") := by
  have h0 : Runs (fun r : Fin p => (if r.val = 0 then Prog.fin (.ok reuse) else ret none : Prog Exc (Option M)))
      fun r => .ok (if r.val = 0 then reuse else none) := by
    have := runs_main_only (d := none) hp (f := fun r => Prog.fin (.ok reuse)) (x := .ok reuse) (fun _ _ => rfl)
    refine cast ?_ this
    congr 1
    funext r; split_ifs <;> rfl
  refine Runs.bind h0 (Runs.bind (runs_share ⟨0, hp⟩ _) ?_)
  cases reuse with
  | some m =>
    simp only [if_true, Option.isSome_some]
    refine Runs.bind (runs_share ⟨0, hp⟩ fun r => if r.val = 0 then (if r.val = 0 then some m else none) else none) ?_
    simp only [if_true]
    exact Runs.ret _
  | none =>
    simp only [ite_self, Option.isSome_none, Bool.false_eq_true, if_false]
    refine Runs.bind (runs_collectAll success) ?_
    by_cases hs : ∀ r, success r = true
    · have : (List.ofFn success).all id = true := by
        rw [List.all_eq_true]; intro x hx; rw [List.mem_ofFn] at hx; obtain ⟨r, rfl⟩ := hx; exact hs r
      simp only [this, if_true, if_pos hs]
      refine Runs.bind (runs_share ⟨0, hp⟩ fun r => if r.val = 0 then some new else none) ?_
      simp only [if_true]
      exact Runs.ret _
    · have : ¬ (List.ofFn success).all id = true := by
        intro hall; apply hs
        intro r
        rw [List.all_eq_true] at hall
        exact hall _ (by rw [List.mem_ofFn]; exact ⟨r, rfl⟩)
      rw [if_neg hs]
      simp only [this]
      exact Runs.raise _

/-- **C37** is false for this function: if the comparison fails (`LinAlgError`, turned into a `ConvergenceCheckError` in
the main process only), the main process goes on to the next call while the others wait for it: inside
`is_converged_MPIwrapped` the processes deadlock. -/
theorem C37_mc_comparison_deadlocks {M : Type} (hp : 1 < p) (m : String) (success : Fin p → Bool) (new : M)
    (rest : M → Prog Exc Bool) :
    Deadlocks (fun r : Fin p => isConvergedMPI true r
      (meanCovFromMC r (.error (.conv m)) (success r) new >>= rest)) := by
  refine Runs.bind_deadlocks runs_sync ?_
  refine deadlocks_of_kinds ⟨0, by omega⟩ ⟨1, hp⟩ ?_
  intro hh
  have h0 : ((if true = true ∨ (⟨0, by omega⟩ : Fin p).val = 0 then guarded (meanCovFromMC (⟨0, by omega⟩ : Fin p).val
    (.error (.conv m)) (success ⟨0, by omega⟩) new >>= rest) else ret (false, none, none)) >>= fun q => do
      let fs ← collectAll q.1
      if fs.any id then
        let msgs ← collectAll q.2.2
        match msgs.filterMap id with
        | m :: _ => raise (.conv m)
        | [] => raise (.other "IndexError")
      else share 0 q.2.1).kind = .allgather := rfl
  cases hh

/-! ## Evaluation of the truth -/

theorem ofFn_val {α : Type} (f : ℕ → α) : List.ofFn (fun r : Fin p => f r.val) = (List.range p).map f := by
  apply List.ext_getElem?
  intro i
  simp only [List.getElem?_ofFn, List.getElem?_map]
  by_cases hi : i < p
  · simp [hi, List.getElem?_range hi]
  · simp [hi]

theorem evalAll_ok {X Y : Type} {truth : X → Except Exc Y} {f : X → Y} : ∀ {xs : List X},
    (∀ x ∈ xs, truth x = .ok (f x)) → evalAll truth xs = .ok (xs.map f)
  | [], _ => rfl
  | x :: xs, h => by
    unfold evalAll
    rw [h x (by simp), evalAll_ok (xs := xs) (fun y hy => h y (by simp [hy]))]
    rfl

theorem mem_evalChunk {X : Type} {p r : ℕ} {xs : List X} {x : X} (h : x ∈ Mpi.evalChunk p r xs) : x ∈ xs := by
  unfold Mpi.evalChunk at h
  exact List.drop_subset _ _ (List.take_subset _ _ h)

/-- **C03** as a program: if the truth does not raise, all the processes get the values at all the points, in their
order. -/
theorem C03_eval_truth_mpi {X Y : Type} (hp : 0 < p) {truth : X → Except Exc Y} {f : X → Y} {newX : List X}
    (h : ∀ x ∈ newX, truth x = .ok (f x)) :
    Runs (fun r : Fin p => evalTruthMPI truth p r newX) fun _ => .ok (newX.map f) := by
  have h1 : Runs (fun r : Fin p => (Prog.fin (evalAll truth (Mpi.evalChunk p r newX)) : Prog Exc (List Y)))
      fun r => .ok ((Mpi.evalChunk p r newX).map f) := by
    have : ∀ r : Fin p, evalAll truth (Mpi.evalChunk p r newX) = .ok ((Mpi.evalChunk p r newX).map f) :=
      fun r => evalAll_ok fun x hx => h x (mem_evalChunk hx)
    simp only [this]
    exact Runs.fin _
  refine Runs.bind h1 (Runs.bind (runs_collect _) (Runs.bind (runs_collect _) (Runs.bind (runs_share ⟨0, hp⟩ _) ?_)))
  simp only [if_true]
  have h2 : (List.ofFn fun r : Fin p => List.map f (Mpi.evalChunk p r.val newX)).flatten = newX.map f := by
    rw [ofFn_val (fun r => List.map f (Mpi.evalChunk p r newX))]
    have h3 := congrArg (List.map f) (Mpi.flatten_evalChunk p hp newX)
    rw [List.map_flatten, List.map_map] at h3
    exact h3
  rw [h2]
  exact Runs.ret _

theorem evalAll_error {X Y : Type} {truth : X → Except Exc Y} : ∀ {xs : List X} {x : X} {e : Exc}, x ∈ xs →
    truth x = .error e → ∃ e', evalAll truth xs = .error e'
  | y :: ys, x, e, hx, he => by
    unfold evalAll
    rcases List.mem_cons.1 hx with rfl | hx
    · rw [he]; exact ⟨e, rfl⟩
    · obtain ⟨e', h'⟩ := evalAll_error hx he
      rw [h']
      cases truth y with
      | ok b => exact ⟨e', rfl⟩
      | error b => exact ⟨b, rfl⟩

/-- **C78**, negation: if the true posterior raises at a point of one process and not at those of another one, the
processes deadlock. -/
theorem C78_truth_exception_deadlocks {X Y : Type} {truth : X → Except Exc Y} {f : X → Y} {newX : List X} (r s : Fin p)
    {x : X} {e : Exc} (hx : x ∈ Mpi.evalChunk p r newX) (he : truth x = .error e)
    (hs : ∀ y ∈ Mpi.evalChunk p s newX, truth y = .ok (f y)) :
    Deadlocks (fun r : Fin p => evalTruthMPI truth p r newX) := by
  refine deadlocks_of_kinds r s ?_
  obtain ⟨e', h'⟩ := evalAll_error hx he
  have h1 : (evalTruthMPI truth p r.val newX).kind = .ended := by
    unfold evalTruthMPI; dsimp only
    rw [h']; rfl
  have h2 : (evalTruthMPI truth p s.val newX).kind = .gather := by
    unfold evalTruthMPI; dsimp only
    rw [evalAll_ok hs]; rfl
  rw [h1, h2]
  decide

/-! ## Fit -/

section Fit
variable {G V : Type} [LinearOrder V] [OrderBot V]

/-- The surrogate that process `r` has after its own part of the fit. -/
def fitted (nRestarts : ℕ → ℕ) (app : ℕ → G) (g : G) (r : ℕ) : G := if nRestarts r ≠ 0 ∨ r = 0 then app r else g

/-- **C39** as a program: if appending does not raise, then all the processes end up with the surrogate of the process
selected in `Run.C39_best_process`. -/
theorem C39_fit_mpi (hp : 0 < p) (nRestarts : ℕ → ℕ) (app : ℕ → G) (lml : G → Option V) (g : G) :
    Runs (fun r : Fin p => fitMPI r (nRestarts r) (.ok (app r)) lml g) fun _ =>
      .ok (app (Run.bestRank p nRestarts fun r => lml (app r))) := by
  obtain ⟨hb, hc, -⟩ := Run.C39_best_process hp nRestarts fun r => lml (app r)
  have h1 : Runs (fun r : Fin p => (if nRestarts r ≠ 0 ∨ r.val = 0 then Prog.fin (.ok (app r)) else ret g : Prog Exc G))
      fun r => .ok (fitted nRestarts app g r) := by
    have : (fun r : Fin p => (if nRestarts r ≠ 0 ∨ r.val = 0 then Prog.fin (.ok (app r)) else ret g : Prog Exc G)) =
        fun r : Fin p => ret (fitted nRestarts app g r) := by
      funext r; unfold fitted; split_ifs <;> rfl
    rw [this]; exact Runs.ret _
  refine Runs.bind (runs_share ⟨0, hp⟩ fun _ => ()) (Runs.bind h1 (Runs.bind (runs_collectAll _) ?_))
  have h2 : (List.ofFn fun r : Fin p => if nRestarts r.val ≠ 0 ∨ r.val = 0 then lml (fitted nRestarts app g r.val) else some ⊥)
      = (List.range p).map (Run.contribution nRestarts fun r => lml (app r)) := by
    rw [ofFn_val fun r => if nRestarts r ≠ 0 ∨ r = 0 then lml (fitted nRestarts app g r) else some ⊥]
    apply List.map_congr_left
    intro r _
    unfold Run.contribution fitted
    split_ifs <;> rfl
  have h3 := runs_share (E := Exc) (⟨Run.bestRank p nRestarts fun r => lml (app r), hb⟩ : Fin p)
    fun r : Fin p => fitted nRestarts app g r
  have h4 : fitted nRestarts app g (Run.bestRank p nRestarts fun r => lml (app r)) =
      app (Run.bestRank p nRestarts fun r => lml (app r)) := by
    unfold fitted; rw [if_pos hc]
  simp only [h4] at h3
  rw [h2]
  exact h3

/-- **C79**, negation: if `append_to_data` raises in one process and not in another one (or the other one has no restarts
assigned), the processes deadlock. -/
theorem C79_fit_exception_deadlocks (hp : 0 < p) (nRestarts : ℕ → ℕ) (app : ℕ → Except Exc G) (lml : G → Option V) (g : G)
    (r s : Fin p) {e : Exc} (hr : nRestarts r ≠ 0 ∨ r.val = 0) (he : app r = .error e)
    (hs : (nRestarts s ≠ 0 ∨ s.val = 0) → ∃ g', app s = .ok g') :
    Deadlocks (fun r : Fin p => fitMPI r (nRestarts r) (app r) lml g) := by
  refine Runs.bind_deadlocks (runs_share ⟨0, hp⟩ fun _ => ()) ?_
  refine deadlocks_of_kinds r s ?_
  simp only [if_pos hr, he]
  by_cases h : nRestarts s ≠ 0 ∨ s.val = 0
  · obtain ⟨g', hg⟩ := hs h
    simp only [if_pos h, hg]
    intro hh; cases hh
  · simp only [if_neg h]
    intro hh; cases hh

end Fit

/-- C37: the criterion raises `ConvergenceCheckError` in the first process only; all the processes raise it. -/
example : Runs (fun r : Fin 3 => isConvergedMPI false r (if r.val = 0 then raise (.conv "few points") else ret true)) fun _ => .error (.conv "few points") :=
  (C37_not_aware (p := 3) (by decide) (check := fun r => if r.val = 0 then raise (.conv "few points") else ret true)
    (x := .error (.conv "few points")) rfl).2 _ rfl

/-- C37: another exception in one process only. -/
example : Deadlocks (fun r : Fin 2 => isConvergedMPI true r (if r.val = 0 then raise .attr else ret true)) := by
  refine C37_other_exception_deadlocks (check := fun r : Fin 2 => if r.val = 0 then raise .attr else ret true)
    (res := fun r => if r.val = 0 then .error .attr else .ok true) ?_ 0 1 .attr rfl (fun m h => by cases h) (fun e h => by simp at h)
  have : (fun r : Fin 2 => (if r.val = 0 then raise .attr else ret true : Prog Exc Bool)) = fun r => Prog.fin (if r.val = 0 then .error .attr else .ok true) := by
    funext r; split_ifs <;> rfl
  rw [this]
  exact Relation.ReflTransGen.refl

example : Runs (fun r : Fin 3 => meanCovFromAcquisition (M := ℕ) r (.inr (.inl "no sample"))) fun _ => .error (.conv "no sample") :=
  C37_mean_cov_from_acquisition (by decide) (.inr (.inl "no sample"))

/-- C37: the Monte Carlo sample failed in the last process. -/
example : Runs (fun r : Fin 3 => meanCovFromMC (M := ℕ) r (.ok none) (decide (r.val ≠ 2)) 7) fun _ => .error (.conv "") := by
  have := C37_mean_cov_from_mc_partial (M := ℕ) (p := 3) (by decide) none (fun r => decide (r.val ≠ 2)) 7
  rwa [if_neg (by decide)] at this

example : Deadlocks (fun r : Fin 3 => isConvergedMPI true r (meanCovFromMC (M := ℕ) r (.error (.conv "no sample")) true 7 >>= fun m => ret (decide (m = 7)))) :=
  C37_mc_comparison_deadlocks (by decide) "no sample" (fun _ => true) 7 _

end GPry.Spmd
