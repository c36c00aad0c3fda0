import Verif.Rng

set_option linter.all false

/-!
# Properties of random states (C137)
-/

namespace GPry.Rng

/-- Numbers taken from the generator of the runner so far. -/
def posOf (p : Proc) : ℕ := match p.heap[p.rng]? with
  | some c => c.pos
  | none => 0

/-- The generator of the runner is that of the process; it exists. -/
def OwnRng (run i : ℕ) (p : Proc) : Prop := ∃ k, p.heap[p.rng]? = some ⟨.child run i, k⟩

/-- Regressor and classifier take numbers from the generator of the runner. -/
structure Good (run i : ℕ) (p : Proc) : Prop where
  own : OwnRng run i p
  gpr : p.gpr = .gen p.rng
  svm : p.svm = none ∨ p.svm = some (.rs p.rng)

theorem own_good {run i : ℕ} {p : Proc} (h : Good run i p) (n : ℕ) :
    Good run i (own p n).1 ∧ posOf (own p n).1 = posOf p + n ∧
    (own p n).2 = (List.range' (posOf p) n).map fun j => (.child run i, j) := by
  obtain ⟨⟨k, hk⟩, h2, h3⟩ := h
  have hlt : p.rng < p.heap.length := by
    by_contra hh
    rw [List.getElem?_eq_none (by omega)] at hk
    simp at hk
  unfold own draw posOf
  rw [hk]
  refine ⟨⟨⟨k + n, ?_⟩, h2, h3⟩, ?_, rfl⟩
  · dsimp only
    rw [List.getElem?_set_self hlt]
  · dsimp only
    rw [List.getElem?_set_self hlt]

theorem fit_eq_own {run i : ℕ} {p : Proc} (h : Good run i p) (n : ℕ) : fit p n = own p n := by
  unfold fit own check
  rw [h.gpr]
  rfl

theorem svm_eq_own {run i : ℕ} {p : Proc} (h : Good run i p) (n : ℕ) : svmFit p n = own p n ∨ svmFit p n = own p 0 ∧ svmFit p n = (p, []) := by
  rcases h.svm with hs | hs
  · right
    have e : svmFit p n = (p, []) := by unfold svmFit; rw [hs]
    refine ⟨?_, e⟩
    rw [e]
    obtain ⟨⟨k, hk⟩, -, -⟩ := h
    unfold own draw
    rw [hk]
    have : p.heap.set p.rng ⟨.child run i, k⟩ = p.heap := by
      apply List.ext_getElem?
      intro m
      by_cases hm : p.rng = m
      · subst hm
        rw [hk, List.getElem?_set_self (by
          by_contra hh
          rw [List.getElem?_eq_none (by omega)] at hk
          simp at hk)]
      · rw [List.getElem?_set_ne hm]
    simp [this]
  · left
    unfold svmFit own check
    rw [hs]
    rfl

/-- **C137**: whatever the regressor used before (a seed, a generator loaded from a checkpoint or sent from another process), after
`_share_gpr` with several processes it uses the generator of its own process, from the position it has, and so does its classifier. -/
theorem C137_share {run root : ℕ} {ps : List Proc} (h2 : 2 ≤ ps.length) (hr : root < ps.length)
    (hown : ∀ i p, ps[i]? = some p → OwnRng run i p) : (shareGpr root ps).length = ps.length ∧
    ∀ i p, ps[i]? = some p → ∃ q, (shareGpr root ps)[i]? = some q ∧ Good run i q ∧ posOf q = posOf p ∧
      q.svm.isSome = (ps[root].svm).isSome := by
  unfold shareGpr
  rw [if_neg (by omega), List.getElem?_eq_getElem hr]
  dsimp only
  refine ⟨by simp, ?_⟩
  intro i p hp
  rw [List.getElem?_mapIdx, hp]
  refine ⟨_, rfl, ?_⟩
  obtain ⟨k, hk⟩ := hown i p hp
  have hlt : p.rng < p.heap.length := by
    by_contra hh
    rw [List.getElem?_eq_none (by omega)] at hk
    simp at hk
  -- what is needed of the process before setting the state
  have key : ∀ q : Proc, q.rng = p.rng → q.heap[q.rng]? = some ⟨.child run i, k⟩ → 
      Good run i (setState q (.gen q.rng)) ∧ posOf (setState q (.gen q.rng)) = posOf p ∧
      (setState q (.gen q.rng)).svm.isSome = q.svm.isSome := by
    intro q hq1 hq2
    have hpos : posOf p = k := by unfold posOf; rw [hk]
    unfold setState
    cases hs : q.svm with
    | none =>
      refine ⟨⟨⟨k, hq2⟩, rfl, .inl rfl⟩, ?_, by simp⟩
      unfold posOf
      dsimp only
      rw [hq2]
      exact hpos.symm
    | some s =>
      refine ⟨⟨⟨k, hq2⟩, rfl, .inr rfl⟩, ?_, by simp⟩
      unfold posOf check
      dsimp only
      rw [hq2]
      exact hpos.symm
  have hcopy : ∀ (a b : List Cell) (s : Src) (c : Cell), b[p.rng]? = some c → (copySrc a b s).1[p.rng]? = some c := by
    intro a b s c hb
    have hl : p.rng < b.length := by
      by_contra hh
      rw [List.getElem?_eq_none (by omega)] at hb
      simp at hb
    unfold copySrc
    cases s <;> dsimp only
    · rw [List.getElem?_append_left hl]; exact hb
    · rw [List.getElem?_append_left hl]; exact hb
    · exact hb
    · exact hb
  split_ifs with hi
  · subst hi
    have := key p rfl hk
    have hpe : ps[i] = p := by
      rw [List.getElem?_eq_getElem hr] at hp
      simpa using hp
    rw [hpe]
    exact this
  · have hrng : (receive ps[root] p).rng = p.rng := by
      unfold receive; cases ps[root].svm <;> rfl
    have := key (receive ps[root] p) hrng (by
      rw [hrng]
      unfold receive
      cases ps[root].svm with
      | none => exact hcopy _ _ _ _ hk
      | some s => exact hcopy _ _ _ _ (hcopy _ _ _ _ hk))
    refine ⟨this.1, this.2.1, ?_⟩
    rw [this.2.2]
    unfold receive
    cases hs : ps[root].svm <;> simp [hs]

/-- One action. -/
theorem act_good {run : ℕ} {ps : List Proc} (h : ∀ i p, ps[i]? = some p → Good run i p) (a : Act) :
    (act ps a).1.length = ps.length ∧ ∀ i p, ps[i]? = some p → ∃ q, (act ps a).1[i]? = some q ∧ Good run i q ∧ posOf p ≤ posOf q ∧
      (act ps a).2.Nodup ∧ (∀ j, (Stream.child run i, j) ∈ (act ps a).2 ↔ posOf p ≤ j ∧ j < posOf q) ∧
      ∀ x ∈ (act ps a).2, ∃ i' j p', x = (Stream.child run i', j) ∧ ps[i']? = some p' := by
  -- an action of one process
  have one : ∀ (m : ℕ) (f : Proc → Proc × Used), (∀ p, ps[m]? = some p → ∃ n, f p = own p n) →
      (onProc ps m f).1.length = ps.length ∧ ∀ i p, ps[i]? = some p → ∃ q, (onProc ps m f).1[i]? = some q ∧ Good run i q ∧ posOf p ≤ posOf q ∧
      (onProc ps m f).2.Nodup ∧ (∀ j, (Stream.child run i, j) ∈ (onProc ps m f).2 ↔ posOf p ≤ j ∧ j < posOf q) ∧
      ∀ x ∈ (onProc ps m f).2, ∃ i' j p', x = (Stream.child run i', j) ∧ ps[i']? = some p' := by
    intro m f hf
    unfold onProc
    cases hm : ps[m]? with
    | none =>
      refine ⟨rfl, fun i p hp => ⟨p, hp, h i p hp, le_refl _, by simp, fun j => ?_, by simp⟩⟩
      simp
    | some pm =>
      obtain ⟨n, hn⟩ := hf pm hm
      obtain ⟨g1, g2, g3⟩ := own_good (h m pm hm) n
      have hml : m < ps.length := by
        by_contra hh
        rw [List.getElem?_eq_none (by omega)] at hm
        simp at hm
      dsimp only
      rw [hn]
      refine ⟨by simp, fun i p hp => ?_⟩
      have hnd : (own pm n).2.Nodup := by
        rw [g3]
        exact List.Nodup.map (fun a b hab => by simpa using hab) (List.nodup_range')
      have hx : ∀ x ∈ (own pm n).2, ∃ i' j p', x = (Stream.child run i', j) ∧ ps[i']? = some p' := by
        intro x hx
        rw [g3, List.mem_map] at hx
        obtain ⟨j, -, rfl⟩ := hx
        exact ⟨m, j, pm, rfl, hm⟩
      by_cases him : m = i
      · subst him
        rw [hm] at hp
        cases hp
        refine ⟨_, List.getElem?_set_self hml, g1, by omega, hnd, fun j => ?_, hx⟩
        rw [g3, List.mem_map, g2]
        constructor
        · rintro ⟨j', hj', he⟩
          simp only [Prod.mk.injEq, true_and] at he
          subst he
          rw [List.mem_range'_1] at hj'
          omega
        · rintro ⟨h1, h2⟩
          exact ⟨j, List.mem_range'_1.2 ⟨h1, h2⟩, rfl⟩
      · refine ⟨p, by rw [List.getElem?_set_ne him]; exact hp, h i p hp, le_refl _, hnd, fun j => ?_, hx⟩
        constructor
        · intro hj
          rw [g3, List.mem_map] at hj
          obtain ⟨j', -, he⟩ := hj
          simp only [Prod.mk.injEq, Stream.child.injEq, true_and] at he
          exact absurd he.1 him
        · rintro ⟨h1, h2⟩; omega
  cases a with
  | own m n => exact one m _ (fun p _ => ⟨n, rfl⟩)
  | fit m n => exact one m _ (fun p hp => ⟨n, fit_eq_own (h m p hp) n⟩)
  | svm m n =>
    refine one m _ (fun p hp => ?_)
    rcases svm_eq_own (h m p hp) n with hh | hh
    · exact ⟨n, hh⟩
    · exact ⟨0, hh.1⟩
  | share r =>
    have triv : (ps).length = ps.length ∧ ∀ i p, ps[i]? = some p → ∃ q, ps[i]? = some q ∧ Good run i q ∧ posOf p ≤ posOf q ∧
      ([] : Used).Nodup ∧ (∀ j, (Stream.child run i, j) ∈ ([] : Used) ↔ posOf p ≤ j ∧ j < posOf q) ∧
      ∀ x ∈ ([] : Used), ∃ i' j p', x = (Stream.child run i', j) ∧ ps[i']? = some p' :=
      ⟨rfl, fun i p hp => ⟨p, hp, h i p hp, le_refl _, by simp, fun j => by simp, by simp⟩⟩
    have ea : act ps (.share r) = (shareGpr r ps, []) := rfl
    rw [ea]
    by_cases h2 : ps.length ≤ 1
    · have e : shareGpr r ps = ps := by unfold shareGpr; rw [if_pos h2]
      rw [e]
      exact triv
    by_cases hr : r < ps.length
    · obtain ⟨s1, s2⟩ := C137_share (run := run) (root := r) (ps := ps) (by omega) hr (fun i p hp => (h i p hp).own)
      refine ⟨s1, fun i p hp => ?_⟩
      obtain ⟨q, q1, q2, q3, -⟩ := s2 i p hp
      exact ⟨q, q1, q2, by omega, by simp, fun j => by rw [q3]; simp, by simp⟩
    · have e : shareGpr r ps = ps := by unfold shareGpr; rw [if_neg h2, List.getElem?_eq_none (by omega)]
      rw [e]
      exact triv

/-- **C137**: if regressor and classifier of every process use the generator of the runner, then whatever is done (acquisitions, restarts,
fits of classifiers, in any order, in any number of processes, with the regressor of any process sent to the others any number of times),
no random number is used twice, and none is left out: process `i` uses exactly those of its stream from its first to its last position. -/
theorem C137_no_reuse {run : ℕ} {ps : List Proc} (h : ∀ i p, ps[i]? = some p → Good run i p) (l : List Act) :
    (acts ps l).1.length = ps.length ∧ (acts ps l).2.Nodup ∧
    (∀ x ∈ (acts ps l).2, ∃ i j p, x = (Stream.child run i, j) ∧ ps[i]? = some p) ∧
    ∀ i p, ps[i]? = some p → ∃ q, (acts ps l).1[i]? = some q ∧ Good run i q ∧ posOf p ≤ posOf q ∧
      ∀ j, (Stream.child run i, j) ∈ (acts ps l).2 ↔ posOf p ≤ j ∧ j < posOf q := by
  induction l generalizing ps with
  | nil =>
    refine ⟨rfl, by simp [acts], by simp [acts], fun i p hp => ⟨p, hp, h i p hp, le_refl _, fun j => ?_⟩⟩
    simp [acts]
  | cons a l ih =>
    obtain ⟨a1, a2⟩ := act_good h a
    have hg : ∀ i q, (act ps a).1[i]? = some q → Good run i q := by
      intro i q hq
      have hi : i < ps.length := by
        by_contra hh
        rw [List.getElem?_eq_none (by omega)] at hq
        simp at hq
      obtain ⟨q', h1, h2, -⟩ := a2 i _ (List.getElem?_eq_getElem hi)
      rw [hq] at h1
      cases h1
      exact h2
    obtain ⟨i1, i2, i3, i4⟩ := ih hg
    have back : ∀ (i : ℕ) (q : Proc), (act ps a).1[i]? = some q → ∃ p, ps[i]? = some p := by
      intro i q hq
      have hi : i < ps.length := by
        by_contra hh
        rw [List.getElem?_eq_none (by omega)] at hq
        simp at hq
      exact ⟨_, List.getElem?_eq_getElem hi⟩
    have hmem : ∀ i p, ps[i]? = some p → ∃ q, (acts ps (a :: l)).1[i]? = some q ∧ Good run i q ∧ posOf p ≤ posOf q ∧
        ∀ j, (Stream.child run i, j) ∈ (acts ps (a :: l)).2 ↔ posOf p ≤ j ∧ j < posOf q := by
      intro i p hp
      obtain ⟨q, q1, q2, q3, -, q5, -⟩ := a2 i p hp
      obtain ⟨r, r1, r2, r3, r4⟩ := i4 i q q1
      refine ⟨r, r1, r2, by omega, fun j => ?_⟩
      show _ ∈ (act ps a).2 ++ (acts (act ps a).1 l).2 ↔ _
      rw [List.mem_append, q5, r4]
      omega
    refine ⟨i1.trans a1, ?_, ?_, hmem⟩
    · show ((act ps a).2 ++ (acts (act ps a).1 l).2).Nodup
      rw [List.nodup_append]
      refine ⟨?_, i2, ?_⟩
      · rcases hx : (act ps a).2 with _ | ⟨x, u⟩
        · simp
        · rw [← hx]
          cases hps : ps[0]? with
          | none =>
            have hlen : ps = [] := by
              cases ps with
              | nil => rfl
              | cons b ps => simp at hps
            subst hlen
            exfalso
            cases a <;> simp [act, onProc] at hx
          | some p0 =>
            obtain ⟨q, -, -, -, q4, -⟩ := a2 0 p0 hps
            exact q4
      · intro x hx y hy hxy
        subst hxy
        obtain ⟨i, j, q, rfl, hq⟩ := i3 x hy
        obtain ⟨p, hp⟩ := back i q hq
        obtain ⟨q', q1, q2, q3, -, q5, -⟩ := a2 i p hp
        rw [hq] at q1
        cases q1
        obtain ⟨r, -, -, -, r4⟩ := i4 i q hq
        have h1 := (q5 j).1 hx
        have h2 := (r4 j).1 hy
        omega
    · intro x hx
      change x ∈ (act ps a).2 ++ (acts (act ps a).1 l).2 at hx
      rw [List.mem_append] at hx
      rcases hx with hx | hx
      · cases hps : ps[0]? with
        | none =>
          have hlen : ps = [] := by
            cases ps with
            | nil => rfl
            | cons b ps => simp at hps
          subst hlen
          exfalso
          cases a <;> simp [act, onProc] at hx
        | some p0 =>
          obtain ⟨q, -, -, -, -, -, q6⟩ := a2 0 p0 hps
          exact q6 x hx
      · obtain ⟨i, j, q, rfl, hq⟩ := i3 x hx
        obtain ⟨p, hp⟩ := back i q hq
        exact ⟨i, j, p, rfl, hp⟩

theorem start_good (run size : ℕ) (svm : Bool) : ∀ i p, (start run size none svm)[i]? = some p → Good run i p ∧ posOf p = 0 := by
  intro i p hp
  unfold start at hp
  rw [List.getElem?_map] at hp
  by_cases hi : i < size
  · rw [List.getElem?_range hi] at hp
    simp only [Option.map_some, Option.some.injEq] at hp
    subst hp
    cases svm
    · exact ⟨⟨⟨0, rfl⟩, rfl, .inl rfl⟩, rfl⟩
    · exact ⟨⟨⟨0, rfl⟩, rfl, .inr rfl⟩, rfl⟩
  · rw [List.getElem?_eq_none (by simp; omega)] at hp
    simp at hp

/-- **C137**: a run with the default regressor (its own or default options), from the beginning. -/
theorem C137_run (run size : ℕ) (svm : Bool) (l : List Act) : (acts (start run size none svm) l).2.Nodup ∧
    ∀ x ∈ (acts (start run size none svm) l).2, ∃ i < size, ∃ j, x = (Stream.child run i, j) := by
  obtain ⟨-, h2, h3, -⟩ := C137_no_reuse (fun i p hp => (start_good run size svm i p hp).1) l
  refine ⟨h2, fun x hx => ?_⟩
  obtain ⟨i, j, p, rfl, hp⟩ := h3 x hx
  refine ⟨i, ?_, j, rfl⟩
  by_contra hh
  unfold start at hp
  rw [List.getElem?_eq_none (by simp; omega)] at hp
  simp at hp

/-- **C137**, false with an integer as `random_state` of the regressor: every fit of the hyperparameters starts from the same "random"
positions, those of the first one. -/
theorem C137_seed_counterexample (p : Proc) (s : ℕ) (h : p.gpr = .seed s) (n : ℕ) :
    (fit p n).2 = (List.range' 0 n).map (fun j => (.ofSeed s, j)) ∧ (fit p n).1.gpr = .seed s := by
  unfold fit check
  rw [h]
  constructor
  · simp [ref, draw]
  · simp [ref, draw, h]

theorem fit_gen {p : Proc} {r k : ℕ} {st : Stream} (hg : p.gpr = .gen r) (hc : p.heap[r]? = some ⟨st, k⟩) (n : ℕ) :
    (fit p n).2 = (List.range' k n).map fun j => (st, j) := by
  unfold fit check
  rw [hg]
  simp [ref, draw, hc]

/-- The regressor of a checkpoint keeps its generator. -/
theorem resume_gpr {saved : Proc} {r : ℕ} {c : Cell} (run i : ℕ) (hg : saved.gpr = .gen r) (hc : saved.heap[r]? = some c) :
    (resume run i saved).gpr = .gen 2 ∧ (resume run i saved).heap[2]? = some c ∧ OwnRng run i (resume run i saved) := by
  unfold resume receive copySrc
  rw [hg]
  cases hs : saved.svm with
  | none => exact ⟨by simp, by simp [hc], 0, by simp [hc]⟩
  | some s => cases s <;> exact ⟨by simp, by simp [hc], 0, by simp [hc]⟩

/-- **C137**, false after resuming in parallel: the first fits of all processes start from the same positions, the next ones of the generator
of the process that wrote the checkpoint. -/
theorem C137_resume_counterexample {saved : Proc} {r k : ℕ} {st : Stream} (hg : saved.gpr = .gen r) (hc : saved.heap[r]? = some ⟨st, k⟩)
    (run i i' n : ℕ) : (fit (resume run i saved) n).2 = (fit (resume run i' saved) n).2 ∧
      (fit (resume run i saved) n).2 = (List.range' k n).map fun j => (st, j) := by
  obtain ⟨h1, h2, -⟩ := resume_gpr run i hg hc
  obtain ⟨h3, h4, -⟩ := resume_gpr run i' hg hc
  rw [fit_gen h1 h2, fit_gen h3 h4]
  exact ⟨rfl, rfl⟩

/-- **C137**: after resuming in parallel, once the regressor has been sent to all processes no number is used twice any more, nor one that the
runner had used. -/
theorem C137_resume_partial {saved : Proc} {r : ℕ} {c : Cell} (hg : saved.gpr = .gen r) (hc : saved.heap[r]? = some c)
    (run size root : ℕ) (hs : 2 ≤ size) (hr : root < size) (l : List Act) :
    (acts (shareGpr root ((List.range size).map fun i => resume run i saved)) l).2.Nodup ∧
    ∀ x ∈ (acts (shareGpr root ((List.range size).map fun i => resume run i saved)) l).2, ∃ i < size, ∃ j, x = (Stream.child run i, j) := by
  have hlen : ((List.range size).map fun i => resume run i saved).length = size := by simp
  have hown : ∀ (i : ℕ) (p : Proc), ((List.range size).map fun i => resume run i saved)[i]? = some p → OwnRng run i p := by
    intro i p hp
    rw [List.getElem?_map] at hp
    by_cases hi : i < size
    · rw [List.getElem?_range hi] at hp
      simp only [Option.map_some, Option.some.injEq] at hp
      subst hp
      exact (resume_gpr run i hg hc).2.2
    · rw [List.getElem?_eq_none (by simp; omega)] at hp
      simp at hp
  obtain ⟨s1, s2⟩ := C137_share (run := run) (root := root) (by rw [hlen]; exact hs) (by rw [hlen]; exact hr) hown
  have hg' : ∀ (i : ℕ) (p : Proc), (shareGpr root ((List.range size).map fun i => resume run i saved))[i]? = some p → Good run i p := by
    intro i p hp
    have hi : i < ((List.range size).map fun i => resume run i saved).length := by
      by_contra hh
      rw [List.getElem?_eq_none (by omega)] at hp
      simp at hp
    obtain ⟨q, q1, q2, -⟩ := s2 i _ (List.getElem?_eq_getElem hi)
    rw [hp] at q1
    cases q1
    exact q2
  obtain ⟨-, h2, h3, -⟩ := C137_no_reuse hg' l
  refine ⟨h2, fun x hx => ?_⟩
  obtain ⟨i, j, p, rfl, hp⟩ := h3 x hx
  refine ⟨i, ?_, j, rfl⟩
  by_contra hh
  rw [List.getElem?_eq_none (by omega)] at hp
  simp at hp

/-- The stream of a cell. -/
def streamAt (h : List Cell) (r : ℕ) : Option Stream := (h[r]?).map Cell.stream

theorem draw_stream (h : List Cell) (r n m : ℕ) : streamAt (draw h r n).1 m = streamAt h m := by
  unfold streamAt draw
  cases hr : h[r]? with
  | none => rfl
  | some c =>
    dsimp only
    by_cases hm : r = m
    · subst hm
      rw [List.getElem?_set_self (by
        by_contra hh
        rw [List.getElem?_eq_none (by omega)] at hr
        simp at hr), hr]
      rfl
    · rw [List.getElem?_set_ne hm]

theorem check_stream (h : List Cell) (s : Src) (b : Bool) (m : ℕ) (st : Stream) (hm : streamAt h m = some st) :
    streamAt (check h s b).1 m = some st := by
  unfold check
  cases s <;> try exact hm
  unfold streamAt at *
  have : m < h.length := by
    by_contra hh
    rw [List.getElem?_eq_none (by omega)] at hm
    simp at hm
  dsimp only
  rw [List.getElem?_append_left this]
  exact hm

theorem fit_keep {p : Proc} {g : ℕ} {st : Stream} (h2 : streamAt p.heap g = some st) (n : ℕ) :
    (fit p n).1.gpr = p.gpr ∧ streamAt (fit p n).1.heap g = some st := by
  have hc := check_stream p.heap p.gpr false g st h2
  unfold fit
  dsimp only
  cases ref (check p.heap p.gpr false).2 with
  | none => exact ⟨rfl, hc⟩
  | some r => exact ⟨rfl, by rw [draw_stream]; exact hc⟩

theorem svm_keep {p : Proc} {g : ℕ} {st : Stream} (h2 : streamAt p.heap g = some st) (n : ℕ) :
    (svmFit p n).1.gpr = p.gpr ∧ streamAt (svmFit p n).1.heap g = some st := by
  unfold svmFit
  cases p.svm with
  | none => exact ⟨rfl, h2⟩
  | some s =>
    have hc := check_stream p.heap s false g st h2
    dsimp only
    cases ref (check p.heap s false).2 with
    | none => exact ⟨rfl, hc⟩
    | some r => exact ⟨rfl, by rw [draw_stream]; exact hc⟩

/-- A serial run never changes the generator of the regressor. -/
theorem serial_keep {p : Proc} {g : ℕ} {st : Stream} (h1 : p.gpr = .gen g) (h2 : streamAt p.heap g = some st) (l : List Act) :
    ∃ q, (acts [p] l).1 = [q] ∧ q.gpr = .gen g ∧ streamAt q.heap g = some st := by
  induction l generalizing p with
  | nil => exact ⟨p, rfl, h1, h2⟩
  | cons a l ih =>
    have one : ∀ (m : ℕ) (f : Proc → Proc × Used), ((f p).1.gpr = p.gpr ∧ streamAt (f p).1.heap g = some st) →
        ∃ q, (onProc [p] m f).1 = [q] ∧ q.gpr = .gen g ∧ streamAt q.heap g = some st := by
      intro m f hf
      unfold onProc
      cases m with
      | zero => exact ⟨(f p).1, rfl, hf.1.trans h1, hf.2⟩
      | succ m => exact ⟨p, by simp, h1, h2⟩
    have : ∃ q, (act [p] a).1 = [q] ∧ q.gpr = .gen g ∧ streamAt q.heap g = some st := by
      cases a with
      | own m n => exact one m _ ⟨rfl, by rw [own, draw_stream]; exact h2⟩
      | fit m n => exact one m _ (fit_keep h2 n)
      | svm m n => exact one m _ (svm_keep h2 n)
      | share r => exact ⟨p, rfl, h1, h2⟩
    obtain ⟨q, q1, q2, q3⟩ := this
    obtain ⟨q', r1, r2, r3⟩ := ih q2 q3
    refine ⟨q', ?_, r2, r3⟩
    show (acts (act [p] a).1 l).1 = [q']
    rw [q1]
    exact r1

/-- **C137**, false after resuming without MPI: the regressor never takes a number from the generator of the new run, whatever its seed; all
its restarts keep coming from the stream of the run that wrote the checkpoint. -/
theorem C137_serial_counterexample {saved : Proc} {r k : ℕ} {st : Stream} (hg : saved.gpr = .gen r) (hc : saved.heap[r]? = some ⟨st, k⟩)
    (run : ℕ) (l : List Act) (n : ℕ) : ∃ q, (acts [resume run 0 saved] l).1 = [q] ∧ ∀ x ∈ (fit q n).2, x.1 = st := by
  obtain ⟨h1, h2, -⟩ := resume_gpr run 0 hg hc
  obtain ⟨q, q1, q2, q3⟩ := serial_keep h1 (st := st) (by unfold streamAt; rw [h2]; rfl) l
  refine ⟨q, q1, fun x hx => ?_⟩
  unfold streamAt at q3
  cases hq : q.heap[2]? with
  | none => rw [hq] at q3; simp at q3
  | some c =>
    rw [hq] at q3
    simp only [Option.map_some, Option.some.injEq] at q3
    obtain ⟨cs, cp⟩ := c
    rw [fit_gen q2 hq, List.mem_map] at hx
    obtain ⟨j, -, rfl⟩ := hx
    exact q3

/-- **C137**: the generator of the runner of a resumed run starts anew, so with the same integer as `seed` it gives again the numbers that the
first run has used. -/
theorem C137_same_seed_counterexample {saved : Proc} {r : ℕ} {c : Cell} (hg : saved.gpr = .gen r) (hc : saved.heap[r]? = some c)
    (run i n : ℕ) (svm : Bool) : (own (resume run i saved) n).2 = (own (construct run i none svm) n).2 ∧
      (own (construct run i none svm) n).2 = (List.range' 0 n).map fun j => (.child run i, j) := by
  obtain ⟨k, hk⟩ := (resume_gpr run i hg hc).2.2
  have hr : (resume run i saved).rng = 1 := by
    unfold resume receive; cases saved.svm <;> rfl
  have hk0 : (resume run i saved).heap[(resume run i saved).rng]? = some ⟨.child run i, 0⟩ := by
    rw [hr]
    unfold resume receive copySrc
    rw [hg]
    cases hs : saved.svm with
    | none => simp
    | some s => cases s <;> simp
  have e2 : (own (construct run i none svm) n).2 = (List.range' 0 n).map fun j => (.child run i, j) := by
    cases svm <;> rfl
  refine ⟨?_, e2⟩
  rw [e2]
  unfold own draw
  rw [hk0]

/-! ## Examples -/

/-- Three processes: two acquisitions, restarts at each, the regressor of process 2 sent to the others, restarts again. -/
def exActs : List Act := [.own 0 2, .own 1 2, .fit 0 1, .fit 1 2, .fit 2 2, .share 2, .svm 0 1, .svm 2 1, .fit 0 1, .fit 1 1]

example : (acts (start 7 3 none true) exActs).2.length = 13 := by decide

example : (acts (start 7 3 none true) exActs).2.Nodup := (C137_run 7 3 true exActs).1

example : (Stream.child 7 1, 4) ∈ (acts (start 7 3 none true) exActs).2 := by decide

/-- Without restoring the generators, two processes would use the same numbers. -/
example : (fit (receive (construct 7 2 none true) (construct 7 0 none true)) 1).2 = (fit (construct 7 2 none true) 1).2 := by decide

/-- An integer. -/
example : (fit (construct 7 0 (some (.seed 3)) true) 2).2 = [(.ofSeed 3, 0), (.ofSeed 3, 1)] :=
  (C137_seed_counterexample _ 3 rfl 2).1

/-- A checkpoint of process 0 of a run that has taken five numbers. -/
def exSaved : Proc := (own (construct 7 0 none true) 5).1

example : (fit (resume 8 0 exSaved) 2).2 = [(.child 7 0, 5), (.child 7 0, 6)] ∧ (fit (resume 8 1 exSaved) 2).2 = [(.child 7 0, 5), (.child 7 0, 6)] := by
  decide

example : (fit (resume 8 0 exSaved) 2).2 = (fit (resume 8 1 exSaved) 2).2 :=
  (C137_resume_counterexample (saved := exSaved) (r := 1) (k := 5) (st := .child 7 0) (by decide) (by decide) 8 0 1 2).1

example : (acts (shareGpr 0 ((List.range 2).map fun i => resume 8 i exSaved)) [.fit 0 1, .fit 1 1, .own 0 1]).2 =
    [(.child 8 0, 0), (.child 8 1, 0), (.child 8 0, 1)] := by decide

example : (acts [resume 8 0 exSaved] [.own 0 2, .fit 0 2, .share 0, .fit 0 1]).2 =
    [(.child 8 0, 0), (.child 8 0, 1), (.child 7 0, 5), (.child 7 0, 6), (.child 7 0, 7)] := by decide

example : (own (resume 7 0 exSaved) 2).2 = [(.child 7 0, 0), (.child 7 0, 1)] := by decide

/-- The third process broadcasts the regressor: the first one still has its own stream. -/
example : ∃ q, (shareGpr 2 (start 7 3 none true))[0]? = some q ∧ Good 7 0 q := by
  obtain ⟨-, h⟩ := C137_share (run := 7) (root := 2) (ps := start 7 3 none true) (by decide) (by decide)
    (fun i p hp => (start_good 7 3 true i p hp).1.own)
  obtain ⟨q, hq, hg, -⟩ := h 0 _ rfl
  exact ⟨q, hq, hg⟩

example : (acts (shareGpr 2 (start 7 3 none true)) exActs).2.Nodup := by
  obtain ⟨hl, h⟩ := C137_share (run := 7) (root := 2) (ps := start 7 3 none true) (by decide) (by decide)
    (fun i p hp => (start_good 7 3 true i p hp).1.own)
  refine (C137_no_reuse (run := 7) (fun i p hp => ?_) exActs).2.1
  have hi : i < (start 7 3 none true).length := by
    rw [← hl]; exact (List.getElem?_eq_some_iff.mp hp).1
  obtain ⟨q, hq, hg, -⟩ := h i _ (List.getElem?_eq_getElem hi)
  rw [hp] at hq
  cases hq
  exact hg

/-- Two processes resume, with the regressor of the checkpoint sent by the first one: no number is used twice in the new run. -/
example : (acts (shareGpr 0 ((List.range 2).map fun i => resume 8 i exSaved)) exActs).2.Nodup :=
  (C137_resume_partial (saved := exSaved) (r := 1) (c := ⟨.child 7 0, 5⟩) (by decide) (by decide) 8 2 0 (by decide) (by decide) exActs).1

end GPry.Rng
