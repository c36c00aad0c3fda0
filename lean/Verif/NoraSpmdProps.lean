import Verif.NoraSpmd
import Verif.NoraProps
import Verif.PoolProps2
import Verif.MpiProps
import Verif.PoolEx

set_option linter.all false

namespace GPry.NoraSpmd

open GPry Spmd Prog Nora Ranked

/-! ## The parts -/

theorem ofFn_eq_range {α : Type*} {p : ℕ} (f : ℕ → α) : List.ofFn (fun r : Fin p => f r) = (List.range p).map f := by
  rw [List.ofFn_eq_map, ← List.map_coe_finRange_eq_range, List.map_map]
  rfl

theorem runs_of_eq {E B : Type} {p : ℕ} {f : Fin p → Prog E B} {a : Fin p → B} (h : ∀ r, f r = .ret (a r)) : Runs f fun r => .ok (a r) := by
  rw [funext h]
  exact Runs.ret _

theorem runs_stepSplitP {α : Type} {p : ℕ} (hp : 0 < p) (v : Fin p → Option (List α)) (l : List α) (h : v ⟨0, hp⟩ = some l) :
    Runs (fun r : Fin p => stepSplitP p r (v r)) fun r => .ok (Mpi.stepSplit p r l) := by
  unfold stepSplitP
  refine Runs.bind (runs_share ⟨0, hp⟩ v) ?_
  rw [h]
  exact Runs.ret _

theorem runs_mergeP {α : Type} {p : ℕ} (hp : 0 < p) (zero : α) (l : List α) :
    Runs (fun r : Fin p => mergeP zero p (Mpi.stepSplit p r l)) fun r => .ok (if r.val = 0 then some l else none) := by
  unfold mergeP
  refine Runs.bind (runs_collect fun r : Fin p => Mpi.stepSplit p r l) ?_
  have hm := Mpi.C02_step_split_merge zero p hp l
  rw [ofFn_eq_range (fun r => Mpi.stepSplit p r l)]
  refine runs_of_eq fun r => ?_
  by_cases hr : r.val = 0
  · simp only [hr, if_true, hm]
  · simp only [hr, if_false]

theorem runs_computeY {P : Type} {p : ℕ} (hp : 0 < p) (pred : P → Ext ℝ × ℝ) (X : Fin p → Option (List P)) (l : List P) (h : X ⟨0, hp⟩ = some l) :
    Runs (fun r : Fin p => computeY p r pred (X r)) fun r =>
      .ok (if r.val = 0 then some (l.map fun x => (pred x).1) else none, if r.val = 0 then some (l.map fun x => (pred x).2) else none) := by
  unfold computeY
  refine Runs.bind (runs_share ⟨0, hp⟩ fun _ => none) ?_
  refine Runs.bind (runs_stepSplitP hp X l h) ?_
  have h1 : ∀ {B : Type} (f : P → B) (r : ℕ), (Mpi.stepSplit p r l).map f = Mpi.stepSplit p r (l.map f) := by
    intro B f r
    unfold Mpi.stepSplit
    split
    · rfl
    · exact Mpi.map_stride f p r l
  simp only [h1]
  refine Runs.bind (runs_mergeP hp (Ext.fin (0 : ℝ)) _) ?_
  refine Runs.bind (runs_mergeP hp 0 _) ?_
  exact Runs.ret _

variable {A V : Type} [DecidableEq A] [LinearOrder V] [BoundedOrder V]

theorem rankAll_ofFn {P Y : Type} (cfg : Cfg P Y V) (x0 : P) (y0 : Y) (a0 : V) (size : ℕ) : ∀ {p : ℕ} (c : Fin p → List (Cand P Y V))
    (pools : List (Pool P Y V)), rankAll cfg x0 y0 a0 size (List.ofFn c) = .ok pools →
    ∃ q : Fin p → Pool P Y V, pools = List.ofFn q ∧ ∀ r, addMany cfg (Pool.init x0 y0 a0 size) (c r) = .ok (q r)
  | 0, c, pools, h => by
    simp [rankAll] at h
    exact ⟨fun r => r.elim0, by simp [← h], fun r => r.elim0⟩
  | p + 1, c, pools, h => by
    rw [List.ofFn_succ] at h
    unfold rankAll at h
    cases h0 : addMany cfg (Pool.init x0 y0 a0 size) (c 0) with
    | error e => rw [h0] at h; cases h
    | ok q0 =>
      rw [h0] at h
      dsimp only at h
      cases h1 : rankAll cfg x0 y0 a0 size (List.ofFn fun i : Fin p => c i.succ) with
      | error e => rw [h1] at h; cases h
      | ok ps =>
        rw [h1] at h
        obtain ⟨q, hq, hq'⟩ := rankAll_ofFn cfg x0 y0 a0 size (fun i : Fin p => c i.succ) ps h1
        refine ⟨Fin.cons q0 q, ?_, fun r => ?_⟩
        · rw [← Except.ok.inj h, List.ofFn_succ, hq]
          simp
        · refine Fin.cases ?_ (fun i => ?_) r
          · simpa using h0
          · simpa using hq' i

/-- Ranking in parallel gives, in all processes, what `Ranked.rankAndMerge` gives for their shares. -/
theorem runs_rankP {p : ℕ} (hp : 0 < p) (q : Par A V) (mine : Fin p → List (Cand (List A) (Ext ℝ) V)) (P : Pool (List A) (Ext ℝ) V)
    (h : rankAndMerge q.cfg q.x0 (.fin 0) q.a0 q.n (List.ofFn fun r => q.order (mine r)) = .ok P) :
    Runs (fun r : Fin p => rankP p r q (mine r)) fun _ => .ok P := by
  unfold rankAndMerge at h
  cases hr : rankAll q.cfg q.x0 (.fin 0) q.a0 q.n (List.ofFn fun r => q.order (mine r)) with
  | error e => rw [hr] at h; cases h
  | ok pools =>
    rw [hr] at h
    dsimp only at h
    obtain ⟨k, rfl, hk⟩ := rankAll_ofFn q.cfg q.x0 (.fin 0) q.a0 q.n (fun r => q.order (mine r)) pools hr
    unfold rankP
    have h0 : Runs (fun r : Fin p => (match addMany q.cfg (Pool.init q.x0 (.fin 0) q.a0 q.n) (q.order (mine r)) with
        | .error e => .raise (.pool e)
        | .ok pool => .ret pool : Prog AErr (Pool (List A) (Ext ℝ) V))) fun r => .ok (k r) := by
      simp only [hk]
      exact Runs.ret _
    refine Runs.bind h0 ?_
    by_cases h1 : p ≤ 1
    · simp only [h1, if_true]
      have hp1 : p = 1 := by omega
      subst hp1
      have : (List.ofFn k) = [k 0] := by simp
      rw [this] at h
      have h2 : ∀ r : Fin 1, k r = P := fun r => by
        rw [Subsingleton.elim r 0]
        exact Except.ok.inj h
      simp only [h2]
      exact Runs.ret _
    · simp only [h1, if_false]
      refine Runs.bind (runs_collect fun r => (k r).X.take (k r).len) ?_
      refine Runs.bind (runs_collect fun r => (k r).y.take (k r).len) ?_
      refine Runs.bind (runs_collect fun r => (k r).sigma.take (k r).len) ?_
      refine Runs.bind (runs_collect fun r => (k r).acq.take (k r).len) ?_
      refine Runs.bind (runs_collect fun r => (k r).acqCond.take (k r).len) ?_
      refine Runs.bind (runs_share ⟨0, hp⟩ _) ?_
      dsimp only
      simp only [if_true]
      have hP : mergePools q.cfg q.x0 (.fin 0) q.a0 q.n (List.ofFn k) = addBulk q.cfg (Pool.init q.x0 (.fin 0) q.a0 q.n)
          (Gpr.maskL ((List.ofFn fun r => (k r).acqCond.take (k r).len).flatten.map isFin) (List.ofFn fun r => (k r).X.take (k r).len).flatten)
          (Gpr.maskL ((List.ofFn fun r => (k r).acqCond.take (k r).len).flatten.map isFin) (List.ofFn fun r => (k r).y.take (k r).len).flatten)
          (Gpr.maskL ((List.ofFn fun r => (k r).acqCond.take (k r).len).flatten.map isFin) (List.ofFn fun r => (k r).sigma.take (k r).len).flatten)
          (Gpr.maskL ((List.ofFn fun r => (k r).acqCond.take (k r).len).flatten.map isFin) (List.ofFn fun r => (k r).acq.take (k r).len).flatten) := by
        have hfm : ∀ {B : Type} (f : Pool (List A) (Ext ℝ) V → List B), (List.ofFn k).flatMap f = (List.ofFn fun r => f (k r)).flatten := by
          intro B f
          rw [List.flatMap, List.map_ofFn]
          rfl
        unfold mergePools
        split
        · rename_i pl hpl
          have := congrArg List.length hpl
          simp at this
          omega
        · simp only [hfm]
      rw [← hP, Except.ok.inj h]
      exact Runs.ret _

theorem finishReweight_eq (pred : List A → Ext ℝ × ℝ) (inB : Option (List A → Bool)) (s : Sample (List A)) :
    (∀ w, Nora.reweight pred inB s = .ok w → finishReweight inB s (within inB s.X s.X) ((within inB s.X s.X).map fun x => (pred x).1)
      ((within inB s.X s.X).map fun x => (pred x).2) = .ok w) ∧
    (∀ e, Nora.reweight pred inB s = .error e → finishReweight inB s (within inB s.X s.X) ((within inB s.X s.X).map fun x => (pred x).1)
      ((within inB s.X s.X).map fun x => (pred x).2) = .error .emptyMax) := by
  unfold Nora.reweight finishReweight
  dsimp only
  constructor
  · intro w h
    split at h <;> rename_i hM
    · cases h
    · rw [hM]
      dsimp only
      rw [← Except.ok.inj h]
  · intro e h
    split at h <;> rename_i hM
    · rw [hM]
    · cases h

/-! ## The sample -/

/-- The attributes after drawing a new sample. -/
def afterNew (q : Par A V) (d : List (List A) × Option (List ℝ)) (s : PState A) (r : ℕ) : PState A :=
  { s with
    mc := if r = 0 then s.mc.set q.pred d.1 d.2 else { s.mc with orig := none, isRe := false }
    proposed := [] }

theorem runs_newSample {p : ℕ} (hp : 0 < p) (q : Par A V) (draw : Fin p → Prog AErr (Option (List (List A) × Option (List ℝ))))
    (d : List (List A) × Option (List ℝ)) (hd : Runs draw fun r => .ok (if r.val = 0 then some d else none)) (s : Fin p → PState A) :
    Runs (fun r : Fin p => newSample p r q (draw r) (s r)) fun r => .ok (afterNew q d (s r) r) := by
  unfold newSample
  refine Runs.bind hd ?_
  refine Runs.bind (runs_computeY hp q.pred (fun r => (if r.val = 0 then some d else none).map Prod.fst) d.1 (by simp)) ?_
  refine runs_of_eq fun r => ?_
  by_cases hr : r.val = 0
  · simp only [hr, if_true, afterNew, Mc.set]
  · simp only [hr, if_false, afterNew]

/-- The attributes after reweighting the sample. -/
def afterOld (w : Reweighted (List A)) (s : PState A) (r : ℕ) : PState A :=
  { s with mc := { s.mc with re := if r = 0 then some w else none, isRe := true } }

theorem runs_oldSample {p : ℕ} (hp : 0 < p) (q : Par A V) (s : Fin p → PState A) (o : Sample (List A)) (ho : (s ⟨0, hp⟩).mc.orig = some o) :
    (∀ w, Nora.reweight q.pred q.inB o = .ok w →
      Runs (fun r : Fin p => oldSample p r q (s r)) fun r => .ok (afterOld w (s r) r)) ∧
    (∀ e, Nora.reweight q.pred q.inB o = .error e →
      Runs (fun r : Fin p => oldSample p r q (s r)) fun r =>
        if r.val = 0 then .error .emptyMax else .ok { s r with mc := { (s r).mc with re := none, isRe := true } }) := by
  have h0 : ∀ r : Fin p, r.val = 0 → r = ⟨0, hp⟩ := fun r hr => Fin.ext hr
  have hs : Runs (fun r : Fin p => (share 0 (if r.val = 0 ∧ (s r).mc.orig.isNone = true then some AErr.noSamples else none) : Prog AErr _))
      fun _ => .ok none := by
    have := runs_share (E := AErr) ⟨0, hp⟩ fun r : Fin p => if r.val = 0 ∧ (s r).mc.orig.isNone = true then some AErr.noSamples else none
    simpa [ho] using this
  have hX : (fun r : Fin p => if r.val = 0 then (s r).mc.orig.map fun o => within q.inB o.X o.X else none) ⟨0, hp⟩ =
      some (within q.inB o.X o.X) := by simp [ho]
  have hY := runs_computeY hp q.pred (fun r : Fin p => if r.val = 0 then (s r).mc.orig.map fun o => within q.inB o.X o.X else none) _ hX
  obtain ⟨hf1, hf2⟩ := finishReweight_eq q.pred q.inB o
  constructor
  · intro w hw
    unfold oldSample
    refine Runs.bind hs ?_
    refine Runs.bind (runs_share ⟨0, hp⟩ fun _ => none) ?_
    refine Runs.bind hY ?_
    refine runs_of_eq fun r => ?_
    by_cases hr : r.val = 0
    · have := h0 r hr
      subst this
      simp only [if_true, ho, Option.map_some, hf1 w hw, afterOld]
    · simp only [hr, if_false, afterOld]
      split <;> first | rfl | (rename_i h; cases h)
  · intro e he
    unfold oldSample
    refine Runs.bind hs ?_
    refine Runs.bind (runs_share ⟨0, hp⟩ fun _ => none) ?_
    refine Runs.bind hY ?_
    have : ∀ f g : Fin p → Prog AErr (PState A), f = g → ∀ res, Runs g res → Runs f res := fun f g h res hr => h ▸ hr
    refine this _ (fun r => Prog.fin (if r.val = 0 then .error .emptyMax else .ok { s r with mc := { (s r).mc with re := none, isRe := true } }))
      (funext fun r => ?_) _ (Runs.fin _)
    by_cases hr : r.val = 0
    · have := h0 r hr
      subst this
      simp only [if_true, ho, Option.map_some, hf2 e he, Prog.fin]
    · simp only [hr, if_false, Prog.fin]
      split <;> first | rfl | (rename_i h; cases h)

theorem runs_noSample {p : ℕ} (hp : 0 < p) (q : Par A V) (s : Fin p → PState A) (ho : (s ⟨0, hp⟩).mc.orig = none) :
    Runs (fun r : Fin p => oldSample p r q (s r)) fun _ => .error .noSamples := by
  have hs : Runs (fun r : Fin p => (share 0 (if r.val = 0 ∧ (s r).mc.orig.isNone = true then some AErr.noSamples else none) : Prog AErr _))
      fun _ => .ok (some .noSamples) := by
    have := runs_share (E := AErr) ⟨0, hp⟩ fun r : Fin p => if r.val = 0 ∧ (s r).mc.orig.isNone = true then some AErr.noSamples else none
    simpa [ho] using this
  unfold oldSample
  refine Runs.bind hs ?_
  exact Runs.raise _

/-! ## From the sample to the proposals -/

theorem deleteIdx_map {B C : Type*} (f : B → C) (l : List B) (idx : List ℕ) : deleteIdx (l.map f) idx = (deleteIdx l idx).map f := by
  unfold deleteIdx
  rw [List.zipIdx_map, List.filter_map, List.map_map, List.map_map]
  rfl

theorem candidates_map {B C : Type*} (f : B → C) (X proposed : List (List A)) (l : List B) :
    candidates X proposed (l.map f) = (candidates X proposed l).map f := by
  unfold candidates
  split
  · rfl
  · exact deleteIdx_map f l _

theorem drop0_map {B C : Type*} (f : B → C) (w : List (Ext ℝ)) (l : List B) : drop0 w (l.map f) = (drop0 w l).map f := by
  unfold drop0
  rw [List.zip_map_right, List.filter_map, List.map_map, List.map_map]
  rfl

/-- The sample left by the first half of `multi_add`: its values are the predictions of the surrogate. -/
def SampleOf (q : Par A V) (s : PState A) (X : List (List A)) : Prop :=
  ∃ w, s.mc.last = some (X, X.map (fun x => (q.pred x).1), X.map (fun x => (q.pred x).2), w)

theorem sampleOf_new (q : Par A V) (d : List (List A) × Option (List ℝ)) (s : PState A) : SampleOf q (afterNew q d s 0) d.1 :=
  ⟨_, rfl⟩

theorem sampleOf_old (q : Par A V) (o : Sample (List A)) (w : Reweighted (List A)) (h : Nora.reweight q.pred q.inB o = .ok w) (s : PState A) :
    SampleOf q (afterOld w s 0) w.X := by
  refine ⟨some w.w, ?_⟩
  unfold Nora.reweight at h
  dsimp only at h
  split at h
  · cases h
  · have hw := Except.ok.inj h
    subst hw
    simp only [afterOld, Mc.last, if_true, Option.map_some, drop0_map]

/-- A candidate of the ranking, at a point. -/
def cand (q : Par A V) (x : List A) : Cand (List A) (Ext ℝ) V := (x, (q.pred x).1, .fin (q.pred x).2, q.acq (q.pred x).1 (q.pred x).2)

theorem stepSplit_map {B C : Type*} (f : B → C) (p r : ℕ) (l : List B) : Mpi.stepSplit p r (l.map f) = (Mpi.stepSplit p r l).map f := by
  unfold Mpi.stepSplit
  split
  · rfl
  · exact (Mpi.map_stride f p r l).symm

theorem rank_nothing {P Y : Type} (cfg : Cfg P Y V) (x0 : P) (y0 : Y) (a0 : V) {n : ℕ} (hn : 1 ≤ n) (l : List (Cand P Y V))
    (h : ∀ c ∈ l, c.2.2.2 = some ⊥) : addMany cfg (Pool.init x0 y0 a0 n) l = .ok (Pool.init x0 y0 a0 n) := by
  induction l with
  | nil => rfl
  | cons c l ih =>
    obtain ⟨x, y, s, a⟩ := c
    have ha : a = some ⊥ := h _ (List.mem_cons_self)
    subst ha
    have hm : (Pool.init x0 y0 a0 n : Pool P Y V).minAcq = some ⊥ := by
      unfold Pool.minAcq Pool.len Pool.init
      simp only [List.length_replicate]
      rw [if_neg (by omega)]
      simp [List.getD_eq_getElem?_getD, List.getElem?_replicate]
    unfold addMany addOne
    rw [hm]
    have : leV (some (⊥ : V)) (some ⊥) = true := by simp [leV, geV]
    rw [if_pos this]
    exact ih fun c hc => h c (List.mem_cons_of_mem _ hc)

theorem maskL_false {B : Type*} (mask : List Bool) (h : ∀ b ∈ mask, b = false) (l : List B) : Gpr.maskL mask l = [] := by
  induction mask generalizing l with
  | nil => cases l <;> rfl
  | cons b mask ih =>
    have hb : b = false := h b (List.mem_cons_self)
    subst hb
    cases l with
    | nil => rfl
    | cons a l => exact ih (fun c hc => h c (List.mem_cons_of_mem _ hc)) l

theorem result_init {P Y : Type} (x0 : P) (y0 : Y) (a0 : V) {n : ℕ} (hn : 1 ≤ n) : (Pool.init x0 y0 a0 n : Pool P Y V).result n = ([], []) := by
  obtain ⟨k, rfl⟩ : ∃ k, n = k + 1 := ⟨n - 1, by omega⟩
  unfold Pool.result Pool.init Pool.len
  simp [List.take_replicate, List.replicate_succ, List.findIdx_cons]

/-- Whatever the candidates (as long as their acquisition values are neither NaN nor `+inf`), the ranking succeeds; what it gives are
some of them. -/
theorem rank_any {P Y : Type} {cfg : Cfg P Y V} (hnan : ∀ pre x y, cfg.cond pre x y ≠ none) (hinf : ∀ pre x y, cfg.cond pre x y ≠ some ⊤)
    (hsort : SortsDesc cfg.argsortDesc) {x0 : P} {y0 : Y} {a0 : V} {n : ℕ} (hn : 1 ≤ n) (shares : List (List (Cand P Y V)))
    (hoff : ∀ c ∈ shares.flatten, c.2.2.2 ≠ none ∧ c.2.2.2 ≠ some ⊤) :
    ∃ Q l, rankAndMerge cfg x0 y0 a0 n shares = .ok Q ∧ l.Subperm shares.flatten ∧ l.length ≤ n ∧
      Q.result n = (l.map (·.1), l.map (·.2.1)) ∧
      ((∃ c ∈ shares.flatten, c.2.2.2 ≠ some ⊥) → ∃ c, l.head? = some c ∧ ∀ c' ∈ shares.flatten, leV c'.2.2.2 c.2.2.2 = true) ∧
      ((∀ c ∈ shares.flatten, c.2.2.2 = some ⊥) → l = []) ∧
      (Shrinks cfg.cond → (∀ c ∈ shares.flatten, c.2.2.2 = cfg.cond [] c.1 c.2.1) → Believed cfg.cond (l.map fun c => (c.1, c.2.1))) := by
  by_cases hex : ∃ c ∈ shares.flatten, c.2.2.2 ≠ some ⊥
  · obtain ⟨Q, h1, h2, h3, h4, c, _, h6, h7⟩ := C28_merge hnan hinf hsort (x0 := x0) (y0 := y0) (a0 := a0) hn shares hoff hex
    refine ⟨Q, Q.occupied, h1, h2, h3, h4, fun _ => ⟨c, h6, h7⟩, fun h => ?_, fun hs ha => merge_believed hnan hinf hsort hs hn shares ha Q h1⟩
    obtain ⟨c, hc, hb⟩ := hex
    exact absurd (h c hc) hb
  · have hall : ∀ c ∈ shares.flatten, c.2.2.2 = some ⊥ := by
      intro c hc
      by_contra hb
      exact hex ⟨c, hc, hb⟩
    have hr : ∀ ss : List (List (Cand P Y V)), (∀ c ∈ ss.flatten, c.2.2.2 = some ⊥) →
        rankAll cfg x0 y0 a0 n ss = .ok (List.replicate ss.length (Pool.init x0 y0 a0 n)) := by
      intro ss
      induction ss with
      | nil => intro _; rfl
      | cons a ss ih =>
        intro h
        unfold rankAll
        rw [rank_nothing cfg x0 y0 a0 hn a fun c hc => h c (by simp [hc])]
        dsimp only
        rw [ih fun c hc => h c (by rw [List.flatten_cons]; exact List.mem_append_right _ hc)]
        rfl
    refine ⟨Pool.init x0 y0 a0 n, [], ?_, List.nil_subperm, by simp, result_init x0 y0 a0 hn, fun h => absurd h hex, fun _ => rfl,
      fun _ _ j t h => by simp at h⟩
    unfold rankAndMerge
    rw [hr shares hall]
    dsimp only
    congr 1
    unfold mergePools
    split
    · rename_i q hq
      have : q ∈ List.replicate shares.length (Pool.init x0 y0 a0 n : Pool P Y V) := by rw [hq]; simp
      exact List.eq_of_mem_replicate this
    · have hm : ∀ b ∈ ((List.replicate shares.length (Pool.init x0 y0 a0 n : Pool P Y V)).flatMap fun p => p.acqCond.take p.len).map isFin,
          b = false := by
        intro b hb
        obtain ⟨v, hv, rfl⟩ := List.mem_map.1 hb
        obtain ⟨q, hq, hv⟩ := List.mem_flatMap.1 hv
        rw [List.eq_of_mem_replicate hq] at hv
        have := List.eq_of_mem_replicate (List.mem_of_mem_take hv)
        rw [this]
        simp [isFin]
      dsimp only
      rw [maskL_false _ hm, maskL_false _ hm, maskL_false _ hm, maskL_false _ hm]
      unfold addBulk bulkFrom
      simp [Pool.cacheModel]

/-- Candidates whose acquisition value is `-inf` are ignored by `add`. -/
theorem addMany_filter {P Y : Type} {cfg : Cfg P Y V} (hnan : ∀ pre x y, cfg.cond pre x y ≠ none) (hsort : SortsDesc cfg.argsortDesc) {size : ℕ}
    (hsize : 1 ≤ size) : ∀ (l : List (Cand P Y V)) (S : List (Slot P Y V)) (b : Ent P Y V) (cache), PInv size S b cache →
      (∀ c ∈ l, c.2.2.2 ≠ none) →
      addMany cfg (ofSlots (S ++ [(b, ⊥)]) cache) l =
        addMany cfg (ofSlots (S ++ [(b, ⊥)]) cache) (l.filter fun c => decide (c.2.2.2 ≠ some ⊥)) := by
  intro l
  induction l with
  | nil => intros; rfl
  | cons c l ih =>
    intro S b cache hinv hl
    obtain ⟨x, y, s, a⟩ := c
    cases a with
    | none => exact absurd rfl (hl _ List.mem_cons_self)
    | some a =>
      by_cases ha : a = ⊥
      · subst ha
        have hm : ∃ v, (ofSlots (S ++ [(b, (⊥ : V))]) cache).minAcq = some v := by
          have hlen := hinv.len
          unfold Pool.minAcq
          have : (ofSlots (S ++ [(b, (⊥ : V))]) cache).len = size := by simp [hlen]
          rw [this, if_neg (by omega)]
          have h2 := getD_slots (S ++ [(b, (⊥ : V))]) cache (size - 1) (by simp; omega)
          exact ⟨_, h2⟩
        obtain ⟨v, hv⟩ := hm
        rw [List.filter_cons_of_neg (by simp), ← ih S b cache hinv fun c hc => hl c (List.mem_cons_of_mem _ hc)]
        conv_lhs => unfold addMany addOne
        rw [hv]
        simp [leV, geV]
      · rw [List.filter_cons_of_pos (by simpa using ha)]
        obtain ⟨S', b', cache', hr, hi, _⟩ := addOne_spec (cond_val hnan) hsort hsize S b cache hinv ⟨x, y, s, a⟩
        conv_lhs => unfold addMany
        conv_rhs => unfold addMany
        dsimp only at hr
        rw [hr]
        exact ih S' b' cache' hi fun c hc => hl c (List.mem_cons_of_mem _ hc)

theorem rankAll_filter {P Y : Type} {cfg : Cfg P Y V} (hnan : ∀ pre x y, cfg.cond pre x y ≠ none) (hsort : SortsDesc cfg.argsortDesc) {x0 : P} {y0 : Y} {a0 : V}
    {size : ℕ} (hsize : 1 ≤ size) (shares : List (List (Cand P Y V))) (hoff : ∀ c ∈ shares.flatten, c.2.2.2 ≠ none) :
    rankAll cfg x0 y0 a0 size shares = rankAll cfg x0 y0 a0 size (shares.map fun l => l.filter fun c => decide (c.2.2.2 ≠ some ⊥)) := by
  induction shares with
  | nil => rfl
  | cons l ls ih =>
    have h1 : addMany cfg (Pool.init x0 y0 a0 size) l =
        addMany cfg (Pool.init x0 y0 a0 size) (l.filter fun c => decide (c.2.2.2 ≠ some ⊥)) := by
      rw [init_ofSlots]
      exact addMany_filter hnan hsort hsize l _ _ _ (pinv_init x0 y0 a0 size) fun c hc => hoff c (by simp [hc])
    rw [List.map_cons]
    unfold rankAll
    rw [h1, ih fun c hc => hoff c (by rw [List.flatten_cons]; exact List.mem_append_right _ hc)]

/-- What the ranking gives has acquisition values above `-inf`. -/
theorem rank_above {P Y : Type} {cfg : Cfg P Y V} (hnan : ∀ pre x y, cfg.cond pre x y ≠ none) (hinf : ∀ pre x y, cfg.cond pre x y ≠ some ⊤)
    (hsort : SortsDesc cfg.argsortDesc) {x0 : P} {y0 : Y} {a0 : V} {n : ℕ} (hn : 1 ≤ n) (shares : List (List (Cand P Y V)))
    (hoff : ∀ c ∈ shares.flatten, c.2.2.2 ≠ none ∧ c.2.2.2 ≠ some ⊤) :
    ∃ Q l, rankAndMerge cfg x0 y0 a0 n shares = .ok Q ∧ l.Subperm shares.flatten ∧ l.length ≤ n ∧
      Q.result n = (l.map (·.1), l.map (·.2.1)) ∧
      ((∃ c ∈ shares.flatten, c.2.2.2 ≠ some ⊥) → ∃ c, l.head? = some c ∧ ∀ c' ∈ shares.flatten, leV c'.2.2.2 c.2.2.2 = true) ∧
      ((∀ c ∈ shares.flatten, c.2.2.2 = some ⊥) → l = []) ∧ (∀ c ∈ l, c.2.2.2 ≠ some ⊥) ∧
      (Shrinks cfg.cond → (∀ c ∈ shares.flatten, c.2.2.2 = cfg.cond [] c.1 c.2.1) → Believed cfg.cond (l.map fun c => (c.1, c.2.1))) := by
  have hfl : ∀ ss : List (List (Cand P Y V)), (ss.map fun l => l.filter fun c => decide (c.2.2.2 ≠ some ⊥)).flatten =
      ss.flatten.filter fun c => decide (c.2.2.2 ≠ some ⊥) := by
    intro ss
    induction ss with
    | nil => rfl
    | cons a ss ih => rw [List.map_cons, List.flatten_cons, ih, List.flatten_cons, List.filter_append]
  obtain ⟨Q, l, h1, h2, h3, h4, h5, h6, h7⟩ := rank_any hnan hinf hsort (x0 := x0) (y0 := y0) (a0 := a0) hn
    (shares.map fun l => l.filter fun c => decide (c.2.2.2 ≠ some ⊥))
    (by intro c hc; rw [hfl] at hc; exact hoff c (List.mem_filter.1 hc).1)
  rw [hfl] at h2 h5 h6 h7
  have hb : ∀ c ∈ l, c.2.2.2 ≠ some ⊥ := fun c hc => by simpa using (List.mem_filter.1 (h2.subset hc)).2
  refine ⟨Q, l, ?_, h2.trans List.filter_sublist.subperm, h3, h4, ?_, ?_, hb, fun hs ha => h7 hs fun c hc => ha c (List.mem_filter.1 hc).1⟩
  · unfold rankAndMerge at h1 ⊢
    rw [rankAll_filter hnan hsort hn shares fun c hc => (hoff c hc).1]
    exact h1
  · rintro ⟨c, hc, hne⟩
    obtain ⟨t, ht, hmax⟩ := h5 ⟨c, List.mem_filter.2 ⟨hc, by simpa using hne⟩, hne⟩
    refine ⟨t, ht, fun c' hc' => ?_⟩
    by_cases hb' : c'.2.2.2 = some ⊥
    · have htm := (hoff t (List.mem_filter.1 (h2.subset (List.mem_of_head? ht))).1).1
      rw [hb']
      cases hta : t.2.2.2 with
      | none => exact absurd hta htm
      | some v => simp [leV, geV]
    · exact hmax c' (List.mem_filter.2 ⟨hc', by simpa using hb'⟩)
  · intro h
    cases l with
    | nil => rfl
    | cons c l => exact absurd (h c (List.mem_filter.1 (h2.subset List.mem_cons_self)).1) (hb c List.mem_cons_self)

/-! ## C121 -/

theorem runs_second {p : ℕ} (hp : 0 < p) (q : Par A V) (hnan : ∀ pre x y, q.cfg.cond pre x y ≠ none)
    (hinf : ∀ pre x y, q.cfg.cond pre x y ≠ some ⊤) (hsort : SortsDesc q.cfg.argsortDesc) (horder : ∀ l, (q.order l).Perm l)
    (hacq : ∀ x, q.acq (q.pred x).1 (q.pred x).2 ≠ none ∧ q.acq (q.pred x).1 (q.pred x).2 ≠ some ⊤) (hn : 1 ≤ q.n)
    (s1 : Fin p → PState A) (X : List (List A)) (hX : SampleOf q (s1 ⟨0, hp⟩) X) :
    ∃ out : List (List A), out.Subperm (candidates X (s1 ⟨0, hp⟩).proposed X) ∧ out.length ≤ q.n ∧
      ((∃ x ∈ candidates X (s1 ⟨0, hp⟩).proposed X, q.acq (q.pred x).1 (q.pred x).2 ≠ some ⊥) →
        ∃ x, out.head? = some x ∧ ∀ x' ∈ candidates X (s1 ⟨0, hp⟩).proposed X,
          leV (q.acq (q.pred x').1 (q.pred x').2) (q.acq (q.pred x).1 (q.pred x).2) = true) ∧
      ((∀ x ∈ candidates X (s1 ⟨0, hp⟩).proposed X, q.acq (q.pred x).1 (q.pred x).2 = some ⊥) → out = []) ∧
      ((∀ x ∈ out, q.acq (q.pred x).1 (q.pred x).2 ≠ some ⊥) ∧
        (Shrinks q.cfg.cond → (∀ x, q.acq (q.pred x).1 (q.pred x).2 = q.cfg.cond [] x (q.pred x).1) →
          Believed q.cfg.cond (out.map fun x => (x, (q.pred x).1)))) ∧
      ∀ i : ℕ, Runs (fun r : Fin p => (do
        let t := if r.val = 0 then toSplit (s1 r) else (none, none, none)
        let X ← stepSplitP p r t.1
        let y ← stepSplitP p r t.2.1
        let sg ← stepSplitP p r t.2.2
        sync
        let P ← rankP p r q ((X.zip (y.zip sg)).map fun c => (c.1, c.2.1, .fin c.2.2, q.acq c.2.1 c.2.2))
        sync
        let out := output q P
        .ret ({ s1 r with i := i + 1, proposed := (s1 r).proposed ++ out.1 }, out) :
          Prog AErr (PState A × List (List A) × List (Ext ℝ))))
        fun r => .ok ({ s1 r with i := i + 1, proposed := (s1 r).proposed ++ out }, out, out.map fun x => (q.pred x).1) := by
  obtain ⟨w, hX⟩ := hX
  set C := candidates X (s1 ⟨0, hp⟩).proposed X with hC
  have ht : toSplit (s1 ⟨0, hp⟩) = (some C, some (C.map fun x => (q.pred x).1), some (C.map fun x => (q.pred x).2)) := by
    unfold toSplit
    rw [hX]
    dsimp only
    rw [candidates_map, candidates_map]
  let mine : Fin p → List (Cand (List A) (Ext ℝ) V) := fun r => (Mpi.stepSplit p r C).map (cand q)
  have hperm : (List.ofFn fun r => q.order (mine r)).flatten.Perm (C.map (cand q)) := by
    have h1 : (List.ofFn fun r => q.order (mine r)).flatten.Perm (List.ofFn mine).flatten := by
      have : ∀ {k : ℕ} (f g : Fin k → List (Cand (List A) (Ext ℝ) V)), (∀ r, (f r).Perm (g r)) → (List.ofFn f).flatten.Perm (List.ofFn g).flatten := by
        intro k
        induction k with
        | zero => intro f g _; simp
        | succ k ih =>
          intro f g h
          rw [List.ofFn_succ, List.ofFn_succ, List.flatten_cons, List.flatten_cons]
          exact (h 0).append (ih _ _ fun r => h r.succ)
      exact this _ _ fun r => horder _
    refine h1.trans ?_
    have h2 : List.ofFn mine = (List.range p).map fun r => Mpi.stepSplit p r (C.map (cand q)) := by
      rw [← ofFn_eq_range]
      congr 1
      funext r
      exact (stepSplit_map _ _ _ _).symm
    rw [h2]
    exact step_split_perm p hp _
  have hoff : ∀ c ∈ (List.ofFn fun r => q.order (mine r)).flatten, c.2.2.2 ≠ none ∧ c.2.2.2 ≠ some ⊤ := by
    intro c hc
    obtain ⟨x, _, rfl⟩ := List.mem_map.1 (hperm.subset hc)
    exact hacq x
  obtain ⟨Q, l, h1, h2, h3, h4, h5, h6, h7, h8⟩ := rank_above hnan hinf hsort (x0 := q.x0) (y0 := .fin 0) (a0 := q.a0) hn _ hoff
  have hl : l = (l.map (·.1)).map (cand q) := by
    rw [List.map_map]
    conv_lhs => rw [← List.map_id l]
    apply List.map_congr_left
    intro c hc
    obtain ⟨x, _, rfl⟩ := List.mem_map.1 (hperm.subset (h2.subset hc))
    rfl
  refine ⟨l.map (·.1), ?_, by simpa using h3, ?_, ?_, ?_, fun i => ?_⟩
  · have : (l.map (·.1)).Subperm ((C.map (cand q)).map (·.1)) := by
      obtain ⟨l', hp', hs'⟩ := h2.trans hperm.subperm
      exact ⟨l'.map (·.1), hp'.map _, hs'.map _⟩
    rw [List.map_map] at this
    have e : C.map ((·.1) ∘ cand q) = C := by
      conv_rhs => rw [← List.map_id C]
      rfl
    rw [e] at this
    exact this
  · rintro ⟨x, hx, hb⟩
    obtain ⟨c, hc, hmax⟩ := h5 ⟨cand q x, hperm.symm.subset (List.mem_map.2 ⟨x, hx, rfl⟩), hb⟩
    refine ⟨c.1, by rw [List.head?_map, hc]; rfl, fun x' hx' => ?_⟩
    have := hmax (cand q x') (hperm.symm.subset (List.mem_map.2 ⟨x', hx', rfl⟩))
    have hcm : c ∈ l := List.mem_of_head? hc
    obtain ⟨z, _, hz⟩ := List.mem_map.1 (hperm.subset (h2.subset hcm))
    rw [← hz] at this ⊢
    exact this
  · intro h
    rw [h6 ?_]
    · rfl
    · intro c hc
      obtain ⟨x, hx, rfl⟩ := List.mem_map.1 (hperm.subset hc)
      exact h x hx
  · refine ⟨fun x hx => ?_, fun hs ha => ?_⟩
    · obtain ⟨c, hc, rfl⟩ := List.mem_map.1 hx
      obtain ⟨z, _, rfl⟩ := List.mem_map.1 (hperm.subset (h2.subset hc))
      exact h7 _ hc
    · have hb := h8 hs (by
        intro c hc
        obtain ⟨x, _, rfl⟩ := List.mem_map.1 (hperm.subset hc)
        exact ha x)
      rw [hl, List.map_map] at hb
      exact hb
  · dsimp only
    refine Runs.bind (runs_stepSplitP hp (fun r : Fin p => (if r.val = 0 then toSplit (s1 r) else (none, none, none)).1) C (by simp [ht])) ?_
    refine Runs.bind (runs_stepSplitP hp (fun r : Fin p => (if r.val = 0 then toSplit (s1 r) else (none, none, none)).2.1) (C.map fun x => (q.pred x).1)
      (by simp only [if_true, ht])) ?_
    refine Runs.bind (runs_stepSplitP hp (fun r : Fin p => (if r.val = 0 then toSplit (s1 r) else (none, none, none)).2.2) (C.map fun x => (q.pred x).2)
      (by simp only [if_true, ht])) ?_
    refine Runs.bind runs_sync ?_
    have hmine : ∀ r : Fin p, ((Mpi.stepSplit p r C).zip ((Mpi.stepSplit p r (C.map fun x => (q.pred x).1)).zip
        (Mpi.stepSplit p r (C.map fun x => (q.pred x).2)))).map (fun c => (c.1, c.2.1, Ext.fin c.2.2, q.acq c.2.1 c.2.2)) = mine r := by
      intro r
      show _ = (Mpi.stepSplit p r C).map (cand q)
      rw [stepSplit_map, stepSplit_map]
      generalize Mpi.stepSplit p r C = L
      induction L with
      | nil => rfl
      | cons a L ih => simp only [List.map_cons, List.zip_cons_cons, ih]; rfl
    simp only [hmine]
    refine Runs.bind (runs_rankP hp q mine Q h1) ?_
    refine Runs.bind runs_sync ?_
    have ho : output q Q = (l.map (·.1), (l.map (·.1)).map fun x => (q.pred x).1) := by
      unfold output
      rw [h4]
      congr 1
      conv_lhs => rw [hl]
      rw [List.map_map, List.map_map, List.map_map]
      rfl
    simp only [ho]
    exact Runs.ret _

/-- **C121**, partial: any number of processes that start a call of `multi_add` together end it together, and return the same points and
predictions. `X` are the points of the sample in the main process: those just drawn, or those left by the reweighting of the last ones.
The points returned are different entries of the sample without the points already proposed since it was drawn; there are at most
`n_points`; the predictions are those of the present surrogate at them; the first one has the highest acquisition value of all. Only
points with a positive acquisition value (a logarithm above `-inf`) are returned, also given the points before them if lies never
increase the acquisition function. Missing: samples of which no point is left after
the reweighting (see `C121_bounds_counterexample`), and acquisition values that are NaN or infinite. -/
theorem C121_multi_add_partial {p : ℕ} (hp : 0 < p) (q : Par A V) (hnan : ∀ pre x y, q.cfg.cond pre x y ≠ none)
    (hinf : ∀ pre x y, q.cfg.cond pre x y ≠ some ⊤) (hsort : SortsDesc q.cfg.argsortDesc) (horder : ∀ l, (q.order l).Perm l)
    (hacq : ∀ x, q.acq (q.pred x).1 (q.pred x).2 ≠ none ∧ q.acq (q.pred x).1 (q.pred x).2 ≠ some ⊤) (hn : q.n ≠ 0) (hm : q.m ≠ 0)
    (draw : Fin p → Prog AErr (Option (List (List A) × Option (List ℝ)))) (d : List (List A) × Option (List ℝ))
    (hd : Runs draw fun r => .ok (if r.val = 0 then some d else none)) (s : Fin p → PState A) (i : ℕ) (hi : ∀ r, (s r).i = i)
    (X proposed : List (List A))
    (hX : (sampleNow q.m i q.force = true ∧ X = d.1 ∧ proposed = []) ∨
      (sampleNow q.m i q.force = false ∧ proposed = (s ⟨0, hp⟩).proposed ∧
        ∃ o w, (s ⟨0, hp⟩).mc.orig = some o ∧ Nora.reweight q.pred q.inB o = .ok w ∧ X = w.X)) :
    ∃ (out : List (List A)) (s' : Fin p → PState A),
      Runs (fun r : Fin p => multiAdd p r q (draw r) (s r)) (fun r => .ok (s' r, out, out.map fun x => (q.pred x).1)) ∧
      (∀ r, (s' r).i = i + 1) ∧ (s' ⟨0, hp⟩).proposed = proposed ++ out ∧ (s' ⟨0, hp⟩).mc.last.map Prod.fst = some X ∧
      (sampleNow q.m i q.force = false → (s' ⟨0, hp⟩).mc.orig = (s ⟨0, hp⟩).mc.orig) ∧
      out.Subperm (candidates X proposed X) ∧ out.length ≤ q.n ∧
      ((∃ x ∈ candidates X proposed X, q.acq (q.pred x).1 (q.pred x).2 ≠ some ⊥) →
        ∃ x, out.head? = some x ∧ ∀ x' ∈ candidates X proposed X,
          leV (q.acq (q.pred x').1 (q.pred x').2) (q.acq (q.pred x).1 (q.pred x).2) = true) ∧
      ((∀ x ∈ candidates X proposed X, q.acq (q.pred x).1 (q.pred x).2 = some ⊥) → out = []) ∧
      (∀ x ∈ out, q.acq (q.pred x).1 (q.pred x).2 ≠ some ⊥) ∧
      (Shrinks q.cfg.cond → (∀ x, q.acq (q.pred x).1 (q.pred x).2 = q.cfg.cond [] x (q.pred x).1) →
        Believed q.cfg.cond (out.map fun x => (x, (q.pred x).1))) := by
  have hn1 : 1 ≤ q.n := by omega
  rcases hX with ⟨hnew, rfl, rfl⟩ | ⟨hold, rfl, o, w, ho, hw, rfl⟩
  · obtain ⟨out, h1, h2, h3, h4, h6, h5⟩ := runs_second hp q hnan hinf hsort horder hacq hn1 (fun r => afterNew q d (s r) r) d.1
      (sampleOf_new q d _)
    refine ⟨out, fun r => { afterNew q d (s r) r with i := i + 1, proposed := (afterNew q d (s r) r).proposed ++ out }, ?_, fun r => rfl, rfl, rfl,
      fun h => (by rw [hnew] at h; cases h), h1, h2, h3, h4, h6⟩
    · unfold multiAdd
      simp only [hn, hm, if_false, hi, hnew, if_true]
      exact Runs.bind (runs_newSample hp q draw d hd s) (h5 i)
  · obtain ⟨out, h1, h2, h3, h4, h6, h5⟩ := runs_second hp q hnan hinf hsort horder hacq hn1 (fun r => afterOld w (s r) r) w.X
      (sampleOf_old q o w hw _)
    refine ⟨out, fun r => { afterOld w (s r) r with i := i + 1, proposed := (afterOld w (s r) r).proposed ++ out }, ?_, fun r => rfl, rfl, ?_,
      fun _ => rfl, h1, h2, h3, h4, h6⟩
    · unfold multiAdd
      simp only [hn, hm, if_false, hi, hold]
      exact Runs.bind ((runs_oldSample hp q s o ho).1 w hw) (h5 i)
    · obtain ⟨v, hv⟩ := sampleOf_old q o w hw (s ⟨0, hp⟩)
      show (afterOld w (s ⟨0, hp⟩) 0).mc.last.map Prod.fst = some w.X
      rw [hv]
      rfl

/-- **C121** is false when the sample is used again and none of its points is within the new bounds: the main process raises, and the other
ones wait for it forever (with a single process, it raises). -/
theorem C121_bounds_counterexample {p : ℕ} (hp : 0 < p) (q : Par A V) (hn : q.n ≠ 0) (hm : q.m ≠ 0)
    (draw : Fin p → Prog AErr (Option (List (List A) × Option (List ℝ)))) (s : Fin p → PState A) (i : ℕ) (hi : ∀ r, (s r).i = i)
    (hold : sampleNow q.m i q.force = false) (o : Sample (List A)) (ho : (s ⟨0, hp⟩).mc.orig = some o) (f : List A → Bool)
    (hf : q.inB = some f) (hno : ∀ x ∈ o.X, f x = false) :
    (2 ≤ p → Deadlocks fun r : Fin p => multiAdd p r q (draw r) (s r)) ∧
    (p = 1 → Runs (fun r : Fin p => multiAdd p r q (draw r) (s r)) fun _ => .error .emptyMax) := by
  have hwith : ∀ {B : Type} (l : List B), within q.inB o.X l = [] := by
    intro B l
    unfold within Nora.sel
    rw [hf]
    dsimp only
    rw [List.map_eq_nil_iff, List.filter_eq_nil_iff]
    rintro ⟨b, c⟩ hb
    obtain ⟨x, hx, hxb⟩ := List.mem_map.1 (List.of_mem_zip hb).1
    simp [← hxb, hno x hx]
  have he : Nora.reweight q.pred q.inB o = .error .emptyMax := by
    unfold Nora.reweight
    dsimp only
    rw [hwith, hwith]
    simp [Ext.pyMax]
  have hr := (runs_oldSample hp q s o ho).2 _ he
  constructor
  · intro h2
    unfold multiAdd
    simp only [hn, hm, if_false, hi, hold]
    refine Deadlocks.of_reach (hr.reach_cont _) ?_
    refine deadlocks_of_ended ⟨0, hp⟩ ⟨1, h2⟩ (.error .emptyMax) (by simp [Prog.fin]) ?_
    intro y hy
    simp only [one_ne_zero, if_false] at hy
    cases y <;> cases hy
  · intro h1
    unfold multiAdd
    simp only [hn, hm, if_false, hi, hold]
    have hr' : Runs (fun r : Fin p => oldSample p r q (s r)) fun _ => .error .emptyMax := by
      have : (fun r : Fin p => (if r.val = 0 then .error .emptyMax else .ok { s r with mc := { (s r).mc with re := none, isRe := true } } :
          Except AErr (PState A))) = fun _ => .error .emptyMax := by
        funext r
        rw [if_pos (by omega)]
      rw [← this]
      exact hr
    exact Runs.bind_error hr' _

/-- **C121**: what is refused is refused in all processes. -/
theorem C121_refused {p : ℕ} (hp : 0 < p) (q : Par A V) (draw : Fin p → Prog AErr (Option (List (List A) × Option (List ℝ))))
    (s : Fin p → PState A) (i : ℕ) (hi : ∀ r, (s r).i = i) :
    (q.n = 0 → Runs (fun r : Fin p => multiAdd p r q (draw r) (s r)) fun _ => .error .valueError) ∧
    (q.n ≠ 0 → q.m = 0 → Runs (fun r : Fin p => multiAdd p r q (draw r) (s r)) fun _ => .error .zeroDivision) ∧
    (q.n ≠ 0 → q.m ≠ 0 → sampleNow q.m i q.force = false → (s ⟨0, hp⟩).mc.orig = none →
      Runs (fun r : Fin p => multiAdd p r q (draw r) (s r)) fun _ => .error .noSamples) := by
  refine ⟨fun h => ?_, fun h1 h2 => ?_, fun h1 h2 h3 h4 => ?_⟩
  · unfold multiAdd
    simp only [h, if_true]
    exact Runs.raise _
  · unfold multiAdd
    simp only [h1, h2, if_false, if_true]
    exact Runs.raise _
  · unfold multiAdd
    simp only [h1, h2, if_false, hi, h3]
    exact Runs.bind_error (runs_noSample hp q s h4) _

/-! ## Examples -/

/-- Three processes, points in one dimension. -/
noncomputable def exPar (inB : Option (List ℕ → Bool)) : Par ℕ (Fin 5) where
  n := 2
  m := 3
  force := false
  pred x := (.fin x.sum, 1)
  inB := inB
  acq _ _ := some 2
  cfg := { cond := fun _ _ _ => some 2, argsortDesc := exSort }
  order := List.reverse
  x0 := [0]
  a0 := 1

def exOld : Sample (List ℕ) where
  X := [[1], [2], [3]]
  y := [.fin 1, .fin 2, .fin 3]
  sigma := [1, 1, 1]
  w := none

/-- The main process has a sample, the other ones do not. -/
def exState (r : Fin 3) : PState ℕ where
  i := 4
  mc := { orig := if r.val = 0 then some exOld else none, re := none, isRe := false }
  proposed := [[2]]

noncomputable def exDraw (r : Fin 3) : Prog AErr (Option (List (List ℕ) × Option (List ℝ))) :=
  .ret (if r.val = 0 then some ([[5], [6]], none) else none)

theorem exOld_reweight : ∃ w, Nora.reweight (exPar none).pred (exPar none).inB exOld = .ok w ∧ w.X = [[1], [2], [3]] := by
  refine ⟨{ X := [[1], [2], [3]], y := [.fin 1, .fin 2, .fin 3], sigma := [1, 1, 1], w := [.fin 1, .fin 1, .fin 1] }, ?_, rfl⟩
  simp [Nora.reweight, exPar, exOld, within, oldWeights, Ext.sub, expE, mulE, Ext.pyMax, divE, Ext.divFin, Ext.lt, drop0, Ext.eqv, Ext.pyMax2, Ext.le, Ext.ge, Ext.gt]

/-- C121: a new sample (call number 3, with `mc_every = 3`). -/
example : ∃ (out : List (List ℕ)) (s' : Fin 3 → PState ℕ),
    Runs (fun r : Fin 3 => multiAdd 3 r (exPar none) (exDraw r) { exState r with i := 3 }) (fun r => .ok (s' r, out, out.map fun x => .fin x.sum)) ∧
    out.Subperm [[5], [6]] ∧ out ≠ [] := by
  obtain ⟨out, s', h1, h2, h3, h4, h5, h6, h7, h8, _⟩ := C121_multi_add_partial (p := 3) (by norm_num) (exPar none) (by simp [exPar])
    (fun _ _ _ => by simp only [exPar]; decide) exSort_sorts (fun l => List.reverse_perm l) (by simp [exPar]; decide) (by decide) (by decide) exDraw
    ([[5], [6]], none) (Runs.ret _) (fun r => { exState r with i := 3 }) 3 (fun _ => rfl) [[5], [6]] [] (.inl ⟨rfl, rfl, rfl⟩)
  have hc : candidates [[5], [6]] [] [[5], [6]] = [[5], [6]] := rfl
  rw [hc] at h6 h8
  refine ⟨out, s', ?_, h6, ?_⟩
  · simpa [exPar] using h1
  · rintro rfl
    obtain ⟨x, hx, _⟩ := h8 ⟨[5], by simp, by simp [exPar]; decide⟩
    cases hx

/-- C121: the old sample (call number 4), without the point already proposed. -/
example : ∃ (out : List (List ℕ)) (s' : Fin 3 → PState ℕ),
    Runs (fun r : Fin 3 => multiAdd 3 r (exPar none) (exDraw r) (exState r)) (fun r => .ok (s' r, out, out.map fun x => .fin x.sum)) ∧
    out.Subperm [[1], [3]] ∧ out ≠ [] := by
  obtain ⟨w, hw, hwX⟩ := exOld_reweight
  obtain ⟨out, s', h1, h2, h3, h4, h5, h6, h7, h8, _⟩ := C121_multi_add_partial (p := 3) (by norm_num) (exPar none) (by simp [exPar])
    (fun _ _ _ => by simp only [exPar]; decide) exSort_sorts (fun l => List.reverse_perm l) (by simp [exPar]; decide) (by decide) (by decide) exDraw
    ([[5], [6]], none) (Runs.ret _) exState 4 (fun _ => rfl) w.X [[2]] (.inr ⟨rfl, rfl, exOld, w, rfl, hw, rfl⟩)
  have hc : candidates [[1], [2], [3]] [[2]] [[1], [2], [3]] = [[1], [3]] := by decide
  rw [hwX, hc] at h6 h8
  refine ⟨out, s', ?_, h6, ?_⟩
  · simpa [exPar] using h1
  · rintro rfl
    obtain ⟨x, hx, _⟩ := h8 ⟨[1], by simp, by simp [exPar]; decide⟩
    cases hx

/-- C121: none of the points of the old sample is within the bounds. -/
example : Deadlocks fun r : Fin 3 => multiAdd 3 r (exPar (some fun x => decide (10 ≤ x.sum))) (exDraw r) (exState r) :=
  (C121_bounds_counterexample (by norm_num) (exPar _) (by decide) (by decide) exDraw exState 4 (fun _ => rfl) (by decide) exOld rfl
    (fun x => decide (10 ≤ x.sum)) rfl (by decide)).1 (by norm_num)

/-- C121: a fourth iteration without the sample of an earlier one. -/
example : Runs (fun r : Fin 3 => multiAdd 3 r (exPar none) (exDraw r) { exState r with mc := { orig := none, re := none, isRe := false } })
    fun _ => .error .noSamples :=
  (C121_refused (p := 3) (by decide) (exPar none) exDraw (fun r => { exState r with mc := { orig := none, re := none, isRe := false } }) 4 (fun _ => rfl)).2.2
    (by simp [exPar]) (by simp [exPar]) (by simp only [exPar]; decide) rfl

end GPry.NoraSpmd
