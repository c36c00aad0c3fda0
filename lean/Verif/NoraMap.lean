import Verif.PoolMap
import Verif.NoraSpmdProps
import Verif.WholeRun
import Verif.ShiftProps

set_option linter.all false

/-!
# `NORA.multi_add` follows a change of variables

Two calls of `multi_add` by any number of processes (`NoraSpmd`), whose components correspond to each other under a change of the points and
of the predicted values: both return, with corresponding points, predictions and attributes, or in both a process raises.
-/

namespace GPry.NoraSpmd

open GPry Spmd Prog Nora Ranked

variable {A A' V : Type} [DecidableEq A] [DecidableEq A'] [LinearOrder V] [BoundedOrder V]

/-- The components of the second call are those of the first one, for the changed points and values. Nothing is said of what is in empty slots of
a pool. -/
structure Follows (φ : List A → List A') (ψ : Ext ℝ → Ext ℝ) (q : Par A V) (q' : Par A' V) : Prop where
  n : q'.n = q.n
  m : q'.m = q.m
  force : q'.force = q.force
  pred : ∀ x, q'.pred (φ x) = (ψ (q.pred x).1, (q.pred x).2)
  inB : (q.inB = none ∧ q'.inB = none) ∨ ∃ b b', q.inB = some b ∧ q'.inB = some b' ∧ ∀ x, b' (φ x) = b x
  acq : ∀ y s, q'.acq (ψ y) s = q.acq y s
  cond : ∀ pre x y, q'.cfg.cond (pre.map (Prod.map φ ψ)) (φ x) (ψ y) = q.cfg.cond pre x y
  argsort : q'.cfg.argsortDesc = q.cfg.argsortDesc
  perm : ∀ l, (q.cfg.argsortDesc l).Perm (List.range l.length)
  order : ∀ l, q'.order (l.map (changeCand φ ψ id)) = (q.order l).map (changeCand φ ψ id)
  a0 : q'.a0 = q.a0
  sub : ∀ a b, (ψ a).sub (ψ b) = a.sub b

/-- Samples and attributes after a change. -/
def mapSample (φ : List A → List A') (ψ : Ext ℝ → Ext ℝ) (o : Sample (List A)) : Sample (List A') := ⟨o.X.map φ, o.y.map ψ, o.sigma, o.w⟩

def mapRe (φ : List A → List A') (ψ : Ext ℝ → Ext ℝ) (o : Reweighted (List A)) : Reweighted (List A') := ⟨o.X.map φ, o.y.map ψ, o.sigma, o.w⟩

def mapP (φ : List A → List A') (ψ : Ext ℝ → Ext ℝ) (s : PState A) : PState A' :=
  ⟨s.i, ⟨s.mc.orig.map (mapSample φ ψ), s.mc.re.map (mapRe φ ψ), s.mc.isRe⟩, s.proposed.map φ⟩

def mapDraw (φ : List A → List A') (d : List (List A) × Option (List ℝ)) : List (List A') × Option (List ℝ) := (d.1.map φ, d.2)

section
variable {φ : List A → List A'} {ψ : Ext ℝ → Ext ℝ} {q : Par A V} {q' : Par A' V}

theorem within_map {B C : Type*} (h : Follows φ ψ q q') (f : B → C) (X : List (List A)) (l : List B) :
    within q'.inB (X.map φ) (l.map f) = (within q.inB X l).map f := by
  rcases h.inB with ⟨h1, h2⟩ | ⟨b, b', h1, h2, h3⟩
  · rw [h1, h2]; rfl
  · rw [h1, h2]
    simp only [within, Nora.sel, List.map_map]
    rw [show b' ∘ φ = b from funext h3, List.zip_map_right, List.filter_map, List.map_map]
    rfl

theorem within_map' {B : Type*} (h : Follows φ ψ q q') (X : List (List A)) (l : List B) : within q'.inB (X.map φ) l = within q.inB X l := by
  have := within_map h (id : B → B) X l
  rwa [List.map_id, List.map_id] at this

theorem reweight_map (h : Follows φ ψ q q') (o : Sample (List A)) :
    Nora.reweight q'.pred q'.inB (mapSample φ ψ o) = (Nora.reweight q.pred q.inB o).map (mapRe φ ψ) := by
  unfold Nora.reweight mapSample
  dsimp only
  rw [within_map h, within_map h]
  have hw0 : oldWeights q'.inB ⟨o.X.map φ, o.y.map ψ, o.sigma, o.w⟩ ((within q.inB o.X o.X).map φ) = oldWeights q.inB o (within q.inB o.X o.X) := by
    unfold oldWeights
    cases o.w with
    | none => simp only [List.map_map]; rfl
    | some w => exact within_map' h _ _
  have hy : ((within q.inB o.X o.X).map φ).map (fun x => (q'.pred x).1) = ((within q.inB o.X o.X).map fun x => (q.pred x).1).map ψ := by
    rw [List.map_map, List.map_map]
    exact List.map_congr_left fun x _ => by simp [h.pred]
  have hs : ((within q.inB o.X o.X).map φ).map (fun x => (q'.pred x).2) = (within q.inB o.X o.X).map fun x => (q.pred x).2 := by
    rw [List.map_map]
    exact List.map_congr_left fun x _ => by simp [h.pred]
  rw [hw0, hy, hs]
  have hsub : ∀ a b : List (Ext ℝ), List.zipWith Ext.sub (a.map ψ) (b.map ψ) = List.zipWith Ext.sub a b := by
    intro a b
    rw [List.zipWith_map]
    simp only [h.sub]
  rw [hsub]
  cases Ext.pyMax (List.zipWith mulE (oldWeights q.inB o (within q.inB o.X o.X))
      ((List.zipWith Ext.sub ((within q.inB o.X o.X).map fun x => (q.pred x).1) (within q.inB o.X o.y)).map expE)) with
  | none => rfl
  | some M =>
    simp only [drop0_map]
    rfl

theorem reweight_sub {pred : List A → Ext ℝ × ℝ} {inB : Option (List A → Bool)} {o : Sample (List A)} {w : Reweighted (List A)}
    (h : Nora.reweight pred inB o = .ok w) : ∀ x ∈ w.X, x ∈ o.X := by
  have h1 : ∀ {B : Type} (m : List (Ext ℝ)) (l : List B), ∀ x ∈ drop0 m l, x ∈ l := by
    intro B m l x hx
    unfold drop0 at hx
    obtain ⟨t, ht, rfl⟩ := List.mem_map.1 hx
    exact (List.of_mem_zip (List.mem_filter.1 ht).1).2
  have h2 : ∀ x ∈ within inB o.X o.X, x ∈ o.X := by
    intro x hx
    unfold within at hx
    split at hx
    · exact hx
    · unfold Nora.sel at hx
      obtain ⟨t, ht, rfl⟩ := List.mem_map.1 hx
      exact (List.of_mem_zip (List.mem_filter.1 ht).1).2
  unfold Nora.reweight at h
  dsimp only at h
  split at h
  · cases h
  · rw [← Except.ok.inj h]
    intro x hx
    exact h2 x (h1 _ _ x hx)

theorem candidates_follow {B C : Type*} (f : B → C) {X proposed : List (List A)} (h : ∀ r ∈ X, ∀ x ∈ proposed, isinRow (φ r) (φ x) = isinRow r x)
    (l : List B) : candidates (X.map φ) (proposed.map φ) (l.map f) = (candidates X proposed l).map f := by
  have hf : ∀ x ∈ proposed, firstMatch (X.map φ) (φ x) = firstMatch X x := by
    intro x hx
    unfold firstMatch
    clear l
    induction X with
    | nil => rfl
    | cons r X ih =>
      rw [List.map_cons, List.findIdx?_cons, List.findIdx?_cons, h r List.mem_cons_self x hx,
        ih fun r' hr' => h r' (List.mem_cons_of_mem _ hr')]
  have he : excluded (X.map φ) (proposed.map φ) = excluded X proposed := by
    unfold excluded
    rw [List.filterMap_map]
    exact List.filterMap_congr fun x hx => hf x hx
  unfold candidates
  rw [List.length_map, he, deleteIdx_map]
  split <;> rfl

theorem runs_error_fails {E B : Type} {p : ℕ} {f : Fin p → Prog E B} {res : Fin p → Except E B} (h : Runs f res) (r : Fin p) {e : E} (he : res r = .error e) :
    Fails f := ⟨_, r, e, h, by simp only [he]; rfl⟩

theorem rankAll_error {P Y : Type} (cfg : Cfg P Y V) (x0 : P) (y0 : Y) (a0 : V) (size : ℕ) : ∀ {p : ℕ} (c : Fin p → List (Cand P Y V))
    (e : PErr), rankAll cfg x0 y0 a0 size (List.ofFn c) = .error e → ∃ r, addMany cfg (Pool.init x0 y0 a0 size) (c r) = .error e
  | 0, c, e, h => by simp [rankAll] at h
  | p + 1, c, e, h => by
    rw [List.ofFn_succ] at h
    unfold rankAll at h
    cases h0 : addMany cfg (Pool.init x0 y0 a0 size) (c 0) with
    | error e' =>
      rw [h0] at h
      exact ⟨0, by rw [h0, Except.error.inj h]⟩
    | ok q0 =>
      rw [h0] at h
      dsimp only at h
      cases h1 : rankAll cfg x0 y0 a0 size (List.ofFn fun i : Fin p => c i.succ) with
      | error e' =>
        rw [h1] at h
        obtain ⟨r, hr⟩ := rankAll_error cfg x0 y0 a0 size (fun i : Fin p => c i.succ) e' h1
        exact ⟨r.succ, by rw [hr, Except.error.inj h]⟩
      | ok ps => rw [h1] at h; cases h

theorem fails_rankP {p : ℕ} (q : Par A V) (mine : Fin p → List (Cand (List A) (Ext ℝ) V)) {e : PErr}
    (h : rankAndMerge q.cfg q.x0 (.fin 0) q.a0 q.n (List.ofFn fun r => q.order (mine r)) = .error e) :
    Fails (fun r : Fin p => rankP p r q (mine r)) := by
  unfold rankAndMerge at h
  cases hr : rankAll q.cfg q.x0 (.fin 0) q.a0 q.n (List.ofFn fun r => q.order (mine r)) with
  | ok ps => rw [hr] at h; cases h
  | error e' =>
    obtain ⟨r, hr'⟩ := rankAll_error q.cfg q.x0 (.fin 0) q.a0 q.n (fun r => q.order (mine r)) e' hr
    unfold rankP
    refine Fails.bind (fails_raise r (.pool e') ?_) _
    rw [hr']

/-- The second half of `multi_add`. -/
noncomputable def second (p r : ℕ) (q : Par A V) (i : ℕ) (s1 : PState A) : Prog AErr (PState A × List (List A) × List (Ext ℝ)) := do
  let t := if r = 0 then toSplit s1 else (none, none, none)
  let X ← stepSplitP p r t.1
  let y ← stepSplitP p r t.2.1
  let sg ← stepSplitP p r t.2.2
  sync
  let P ← rankP p r q ((X.zip (y.zip sg)).map fun c => (c.1, c.2.1, .fin c.2.2, q.acq c.2.1 c.2.2))
  sync
  let out := output q P
  .ret ({ s1 with i := i + 1, proposed := s1.proposed ++ out.1 }, out)

theorem runs_second_any {p : ℕ} (hp : 0 < p) (q : Par A V) (i : ℕ) (s1 : Fin p → PState A) (X : List (List A)) (hX : SampleOf q (s1 ⟨0, hp⟩) X)
    {C : List (List A)} (hC : C = candidates X (s1 ⟨0, hp⟩).proposed X) :
    (∀ Q, rankAndMerge q.cfg q.x0 (.fin 0) q.a0 q.n (List.ofFn fun r : Fin p => q.order ((Mpi.stepSplit p r C).map (cand q))) = .ok Q →
      Runs (fun r : Fin p => second p r q i (s1 r)) fun r => .ok ({ s1 r with i := i + 1, proposed := (s1 r).proposed ++ (output q Q).1 }, output q Q)) ∧
    (∀ e, rankAndMerge q.cfg q.x0 (.fin 0) q.a0 q.n (List.ofFn fun r : Fin p => q.order ((Mpi.stepSplit p r C).map (cand q))) = .error e →
      Fails (fun r : Fin p => second p r q i (s1 r))) := by
  obtain ⟨w, hX⟩ := hX
  have ht : toSplit (s1 ⟨0, hp⟩) = (some C, some (C.map fun x => (q.pred x).1), some (C.map fun x => (q.pred x).2)) := by
    unfold toSplit
    rw [hX]
    dsimp only
    rw [candidates_map, candidates_map, hC]
  have a1 := runs_stepSplitP hp (fun r : Fin p => (if r.val = 0 then toSplit (s1 r) else (none, none, none)).1) C (by simp [ht])
  have a2 := runs_stepSplitP hp (fun r : Fin p => (if r.val = 0 then toSplit (s1 r) else (none, none, none)).2.1) (C.map fun x => (q.pred x).1)
    (by simp only [if_true, ht])
  have a3 := runs_stepSplitP hp (fun r : Fin p => (if r.val = 0 then toSplit (s1 r) else (none, none, none)).2.2) (C.map fun x => (q.pred x).2)
    (by simp only [if_true, ht])
  have hmine : ∀ r : Fin p, ((Mpi.stepSplit p r C).zip ((Mpi.stepSplit p r (C.map fun x => (q.pred x).1)).zip
      (Mpi.stepSplit p r (C.map fun x => (q.pred x).2)))).map (fun c => (c.1, c.2.1, Ext.fin c.2.2, q.acq c.2.1 c.2.2)) =
      (Mpi.stepSplit p r C).map (cand q) := by
    intro r
    rw [stepSplit_map, stepSplit_map]
    generalize Mpi.stepSplit p r C = L
    induction L with
    | nil => rfl
    | cons a L ih => simp only [List.map_cons, List.zip_cons_cons, ih]; rfl
  constructor
  · intro Q hQ
    unfold second
    dsimp only
    refine Runs.bind a1 (Runs.bind a2 (Runs.bind a3 (Runs.bind runs_sync ?_)))
    simp only [hmine]
    exact Runs.bind (runs_rankP hp q _ Q hQ) (Runs.bind runs_sync (Runs.ret _))
  · intro e he
    unfold second
    dsimp only
    refine Runs.bind_fails a1 (Runs.bind_fails a2 (Runs.bind_fails a3 (Runs.bind_fails runs_sync ?_)))
    simp only [hmine]
    exact Fails.bind (fails_rankP q _ he) _

theorem cand_follow (h : Follows φ ψ q q') (x : List A) : cand q' (φ x) = changeCand φ ψ id (cand q x) := by
  simp only [cand, changeCand, h.pred, h.acq, id]

theorem second_follows {p : ℕ} (hp : 0 < p) (h : Follows φ ψ q q') (hn : q.n ≠ 0) (i : ℕ) (s1 : Fin p → PState A) (X : List (List A))
    (hX : SampleOf q (s1 ⟨0, hp⟩) X) (hX' : SampleOf q' (mapP φ ψ (s1 ⟨0, hp⟩)) (X.map φ))
    (hisin : ∀ r ∈ X, ∀ x ∈ (s1 ⟨0, hp⟩).proposed, isinRow (φ r) (φ x) = isinRow r x) :
    (∃ (s2 : Fin p → PState A) (out : List (List A)) (ys : List (Ext ℝ)), Runs (fun r : Fin p => second p r q i (s1 r)) (fun r => .ok (s2 r, out, ys)) ∧
      Runs (fun r : Fin p => second p r q' i (mapP φ ψ (s1 r))) fun r => .ok (mapP φ ψ (s2 r), out.map φ, ys.map ψ)) ∨
    (Fails (fun r : Fin p => second p r q i (s1 r)) ∧ Fails (fun r : Fin p => second p r q' i (mapP φ ψ (s1 r)))) := by
  set C := candidates X (s1 ⟨0, hp⟩).proposed X with hC
  have hC' : C.map φ = candidates (X.map φ) (mapP φ ψ (s1 ⟨0, hp⟩)).proposed (X.map φ) := (candidates_follow φ hisin X).symm
  obtain ⟨b1, b2⟩ := runs_second_any hp q i s1 X hX hC
  obtain ⟨b1', b2'⟩ := runs_second_any hp q' i (fun r => mapP φ ψ (s1 r)) (X.map φ) hX' hC'
  have hsh : (List.ofFn fun r : Fin p => q'.order ((Mpi.stepSplit p r (C.map φ)).map (cand q'))) =
      (List.ofFn fun r : Fin p => q.order ((Mpi.stepSplit p r C).map (cand q))).map (List.map (changeCand φ ψ id)) := by
    rw [List.map_ofFn]
    congr 1
    funext r
    rw [Function.comp_apply, ← h.order, stepSplit_map, List.map_map, List.map_map]
    congr 1
    exact List.map_congr_left fun x _ => cand_follow h x
  rw [hsh, h.a0, h.n] at b1' b2'
  rcases rankAndMerge_follows h.cond h.argsort h.perm id q.x0 (.fin 0) q'.x0 (.fin 0) q.a0 (size := q.n) (by omega)
    (List.ofFn fun r : Fin p => q.order ((Mpi.stepSplit p r C).map (cand q))) with ⟨e, h1, h2⟩ | ⟨Q, Q', h1, h2, h3⟩
  · exact .inr ⟨b2 e h1, b2' e h2⟩
  · left
    have ho : output q' Q' = ((output q Q).1.map φ, (output q Q).2.map ψ) := by
      unfold output
      rw [h.n]
      exact h3 q.n le_rfl
    refine ⟨_, (output q Q).1, (output q Q).2, b1 Q h1, ?_⟩
    have := b1' Q' h2
    rw [ho] at this
    simp only [mapP, List.map_append]
    exact this

theorem multiAdd_eq (p r : ℕ) (q : Par A V) (draw : Prog AErr (Option (List (List A) × Option (List ℝ)))) (s : PState A) (hn : q.n ≠ 0) (hm : q.m ≠ 0) :
    multiAdd p r q draw s = (if sampleNow q.m s.i q.force then newSample p r q draw s else oldSample p r q s) >>= fun s1 => second p r q s.i s1 := by
  unfold multiAdd
  rw [if_neg hn, if_neg hm]
  by_cases hs : sampleNow q.m s.i q.force = true
  · simp only [hs, if_true]
    rfl
  · simp only [hs]
    rfl

theorem afterNew_follow (h : Follows φ ψ q q') (d : List (List A) × Option (List ℝ)) (s : PState A) (r : ℕ) :
    afterNew q' (mapDraw φ d) (mapP φ ψ s) r = mapP φ ψ (afterNew q d s r) := by
  unfold afterNew mapP mapDraw
  by_cases hr : r = 0
  · simp only [hr, if_true, Mc.set, Option.map_some, mapSample, List.map_map, List.map_nil]
    have h1 : (fun x => (q'.pred x).1) ∘ φ = ψ ∘ fun x => (q.pred x).1 := funext fun x => by simp [h.pred]
    have h2 : (fun x => (q'.pred x).2) ∘ φ = fun x => (q.pred x).2 := funext fun x => by simp [h.pred]
    rw [h1, h2]
  · simp only [hr, if_false]
    rfl

theorem afterOld_follow (w : Reweighted (List A)) (s : PState A) (r : ℕ) :
    afterOld (mapRe φ ψ w) (mapP φ ψ s) r = mapP φ ψ (afterOld w s r) := by
  unfold afterOld mapP
  by_cases hr : r = 0 <;> simp [hr]

/-- A call of `multi_add` by `p` processes, and the corresponding one for the changed points and values: both return, the second one with the
changed points, predictions and attributes, or in both a process raises. If the sample is used again, the test for points already proposed has
to give the same for the changed points. -/
theorem multiAdd_follows {p : ℕ} (hp : 0 < p) (h : Follows φ ψ q q') (draw : Fin p → Prog AErr (Option (List (List A) × Option (List ℝ))))
    (draw' : Fin p → Prog AErr (Option (List (List A') × Option (List ℝ)))) (d : List (List A) × Option (List ℝ))
    (hd : Runs draw fun r => .ok (if r.val = 0 then some d else none)) (hd' : Runs draw' fun r => .ok (if r.val = 0 then some (mapDraw φ d) else none))
    (s : Fin p → PState A) (i : ℕ) (hi : ∀ r, (s r).i = i)
    (hisin : sampleNow q.m i q.force = false → ∀ o, (s ⟨0, hp⟩).mc.orig = some o → ∀ r ∈ o.X, ∀ x ∈ (s ⟨0, hp⟩).proposed,
      isinRow (φ r) (φ x) = isinRow r x) :
    (∃ (s2 : Fin p → PState A) (out : List (List A)) (ys : List (Ext ℝ)), Runs (fun r : Fin p => multiAdd p r q (draw r) (s r)) (fun r => .ok (s2 r, out, ys)) ∧
      Runs (fun r : Fin p => multiAdd p r q' (draw' r) (mapP φ ψ (s r))) fun r => .ok (mapP φ ψ (s2 r), out.map φ, ys.map ψ)) ∨
    (Fails (fun r : Fin p => multiAdd p r q (draw r) (s r)) ∧ Fails (fun r : Fin p => multiAdd p r q' (draw' r) (mapP φ ψ (s r)))) := by
  by_cases hn : q.n = 0
  · right
    constructor
    · exact fails_raise ⟨0, hp⟩ .valueError (by simp [multiAdd, hn])
    · exact fails_raise ⟨0, hp⟩ .valueError (by simp [multiAdd, h.n, hn])
  by_cases hm : q.m = 0
  · right
    constructor
    · exact fails_raise ⟨0, hp⟩ .zeroDivision (by simp [multiAdd, hn, hm])
    · exact fails_raise ⟨0, hp⟩ .zeroDivision (by simp [multiAdd, h.n, hn, h.m, hm])
  have hn' : q'.n ≠ 0 := by rw [h.n]; exact hn
  have hm' : q'.m ≠ 0 := by rw [h.m]; exact hm
  have hi' : ∀ r, (mapP φ ψ (s r)).i = i := hi
  simp only [multiAdd_eq _ _ q _ _ hn hm, multiAdd_eq _ _ q' _ _ hn' hm', hi, hi', h.m, h.force]
  by_cases hnew : sampleNow q.m i q.force = true
  · simp only [hnew, if_true]
    have r1 := runs_newSample hp q draw d hd s
    have r1' := runs_newSample hp q' draw' (mapDraw φ d) hd' (fun r => mapP φ ψ (s r))
    simp only [afterNew_follow h] at r1'
    rcases second_follows hp h hn i (fun r => afterNew q d (s r) r) d.1 (sampleOf_new q d _)
      (by rw [← afterNew_follow h]; exact sampleOf_new q' (mapDraw φ d) _) (by simp [afterNew]) with ⟨s2, out, ys, e1, e2⟩ | ⟨e1, e2⟩
    · exact .inl ⟨s2, out, ys, Runs.bind r1 e1, Runs.bind r1' e2⟩
    · exact .inr ⟨Runs.bind_fails r1 e1, Runs.bind_fails r1' e2⟩
  · simp only [hnew]
    rw [Bool.not_eq_true] at hnew
    cases ho : (s ⟨0, hp⟩).mc.orig with
    | none =>
      right
      exact ⟨Fails.bind (runs_error_fails (runs_noSample hp q s ho) ⟨0, hp⟩ rfl) _,
        Fails.bind (runs_error_fails (runs_noSample hp q' (fun r => mapP φ ψ (s r)) (by simp [mapP, ho])) ⟨0, hp⟩ rfl) _⟩
    | some o =>
      have ho' : (mapP φ ψ (s ⟨0, hp⟩)).mc.orig = some (mapSample φ ψ o) := by simp [mapP, ho]
      obtain ⟨t1, t2⟩ := runs_oldSample hp q s o ho
      obtain ⟨t1', t2'⟩ := runs_oldSample hp q' (fun r => mapP φ ψ (s r)) (mapSample φ ψ o) ho'
      have hrw := reweight_map h o
      cases hw : Nora.reweight q.pred q.inB o with
      | error e =>
        rw [hw] at hrw
        right
        exact ⟨Fails.bind (runs_error_fails (t2 e hw) ⟨0, hp⟩ (e := .emptyMax) (if_pos rfl)) _, Fails.bind (runs_error_fails (t2' e hrw) ⟨0, hp⟩ (e := .emptyMax) (if_pos rfl)) _⟩
      | ok w =>
        rw [hw] at hrw
        have r1 := t1 w hw
        have r1' := t1' (mapRe φ ψ w) hrw
        simp only [afterOld_follow] at r1'
        rcases second_follows hp h hn i (fun r => afterOld w (s r) r) w.X (sampleOf_old q o w hw _)
          (by rw [← afterOld_follow]; exact sampleOf_old q' (mapSample φ ψ o) (mapRe φ ψ w) hrw _)
          (fun r hr x hx => hisin hnew o ho r (reweight_sub hw r hr) x hx) with ⟨s2, out, ys, e1, e2⟩ | ⟨e1, e2⟩
        · exact .inl ⟨s2, out, ys, Runs.bind r1 e1, Runs.bind r1' e2⟩
        · exact .inr ⟨Runs.bind_fails r1 e1, Runs.bind_fails r1' e2⟩

end

end GPry.NoraSpmd
