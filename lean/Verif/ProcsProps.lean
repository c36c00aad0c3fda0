import Verif.PoolEx
import Verif.NoraSpmdProps

set_option linter.all false

/-!
# The number of processes and the batch of NORA (C168)

Each process ranks its share of the sample, and the main process ranks what the pools of the processes hold.
-/

namespace GPry.Ranked

variable {P Y V : Type*} [LinearOrder V] [BoundedOrder V]

theorem greedy_perm {cond : List (P × Y) → P → Y → Option V} {pre : List (P × Y)} {rem : List (Cand P Y V)} {n : ℕ}
    {l : List (Cand P Y V × Option V)} (h : Greedy cond pre rem n l) {rem2 : List (Cand P Y V)} (hp : rem.Perm rem2) : Greedy cond pre rem2 n l := by
  cases h with
  | full => exact .full _ _
  | exhausted _ _ _ h => exact .exhausted _ _ _ fun c hc => h c (hp.mem_iff.2 hc)
  | pick _ _ rem' n c rest hne hrem hmax hrest => exact .pick _ _ rem' n c rest hne (hp.symm.trans hrem) (fun c' hc' => hmax c' (hp.mem_iff.2 hc')) hrest

/-- The pools of the processes if each share fits in a pool. -/
theorem rankAll_fit {cfg : Cfg P Y V} (hnan : ∀ pre x y, cfg.cond pre x y ≠ none) (hsort : SortsDesc cfg.argsortDesc)
    (hnull : ∀ pre x y, val cfg pre x y ≠ ⊥) {x0 : P} {y0 : Y} {a0 : V} {size : ℕ} (hsize : 1 ≤ size) :
    ∀ (shares : List (List (Cand P Y V))) (pools : List (Pool P Y V)), (∀ l ∈ shares, l.length ≤ size) →
      (∀ c ∈ shares.flatten, c.2.2.2 ≠ some ⊥ ∧ c.2.2.2 ≠ some ⊤) → rankAll cfg x0 y0 a0 size shares = .ok pools →
      pools.length = shares.length ∧ ∃ (S : List (Slot P Y V)) (es : List (Ent P Y V)), shares.flatten = es.map tup ∧
        (pools.flatMap fun p => p.X.take p.len) = S.map (·.1.x) ∧ (pools.flatMap fun p => p.y.take p.len) = S.map (·.1.y) ∧
        (pools.flatMap fun p => p.sigma.take p.len) = S.map (·.1.s) ∧ (pools.flatMap fun p => p.acq.take p.len) = S.map (fun t => some t.1.a) ∧
        (pools.flatMap fun p => p.acqCond.take p.len) = S.map (fun t => some t.2) ∧ (occ S).Perm es ∧ ∀ t ∈ S, t.2 ≠ ⊤ := by
  intro shares
  induction shares with
  | nil =>
    intro pools _ _ h
    simp only [rankAll, Except.ok.injEq] at h
    subst h
    exact ⟨rfl, [], [], by simp [occ]⟩
  | cons l ls ih =>
    intro pools hfit hoff h
    rw [rankAll] at h
    split at h
    · simp at h
    · rename_i p hp
      split at h
      · simp at h
      · rename_i ps hps
        simp only [Except.ok.injEq] at h
        subst h
        obtain ⟨hl, S2, es2, g1, g4, g5, g6, g7, g8, g9, g10⟩ := ih ps (fun m hm => hfit m (List.mem_cons_of_mem _ hm))
          (fun c hc => hoff c (by rw [List.flatten_cons]; exact List.mem_append_right _ hc)) hps
        obtain ⟨es1, S, b, cache, rfl, rfl, hinv, hsub, ⟨t', ht', hall, hor⟩, hperm, -⟩ := addMany_init hnan hsort hsize l p hp
        have hoff1 : ∀ e ∈ es1, e.a ≠ ⊥ ∧ e.a ≠ ⊤ := by
          intro e he
          have := hoff (tup e) (by rw [List.flatten_cons]; exact List.mem_append_left _ (List.mem_map.2 ⟨e, he, rfl⟩))
          exact ⟨fun h => this.1 (by simp [tup, h]), fun h => this.2 (by simp [tup, h])⟩
        have hP := hperm hnull (fun e he => (hoff1 e he).1) (by simpa using hfit _ (List.mem_cons_self ..))
        have hlen : (ofSlots (S ++ [(b, (⊥ : V))]) cache).len = S.length := by simp
        have htop : ∀ t ∈ S, t.2 ≠ ⊤ := by
          intro t ht h0
          have hne : t'.2 ≠ ⊤ := by
            rcases hor with h | ⟨e, he, rfl⟩
            · intro h1
              have hb : (⊥ : V) = ⊤ := by rw [← h, h1]
              have h2 : t'.2 ≠ ⊥ ∨ es1 = [] := by
                cases es1 with
                | nil => exact .inr rfl
                | cons e es => exact absurd (le_bot_iff.1 ((hall e (by simp)).trans (le_of_eq h))) (hoff1 e (by simp)).1
              rcases h2 with h2 | h2
              · exact h2 h
              · subst h2
                exact hnull [] b.x b.y (le_bot_iff.1 (hb ▸ le_top))
            · exact (hoff1 e he).2
          have hd := hinv.desc
          cases S with
          | nil => simp at ht
          | cons s S =>
            simp only [List.head?_cons, Option.some.injEq] at ht'
            subst ht'
            rcases List.mem_cons.1 ht with rfl | ht
            · exact hne h0
            · have := (List.pairwise_cons.1 hd).1 t ht
              rw [h0] at this
              exact hne (top_le_iff.1 this)
        refine ⟨by simp [hl], S ++ S2, es1 ++ es2, by simp [g1], ?_, ?_, ?_, ?_, ?_, ?_, ?_⟩
        · rw [List.flatMap_cons, g4, hlen]; simp [ofSlots]
        · rw [List.flatMap_cons, g5, hlen]; simp [ofSlots]
        · rw [List.flatMap_cons, g6, hlen]; simp [ofSlots]
        · rw [List.flatMap_cons, g7, hlen]; simp [ofSlots]
        · rw [List.flatMap_cons, g8, hlen]; simp [ofSlots]
        · rw [occ_append]
          exact hP.append g9
        · intro t ht
          rcases List.mem_append.1 ht with ht | ht
          · exact htop t ht
          · exact g10 t ht

/-- **C168**, gp_acquisition.py:1126-1191, partial: if the share of each process fits in its pool, the merged pool is a greedy selection among the points of
the whole sample, whatever the number of processes and the way in which the sample is divided. Missing: larger shares, see `C168_counterexample`. -/
theorem C168_greedy_partial {cfg : Cfg P Y V} (hnan : ∀ pre x y, cfg.cond pre x y ≠ none) (hnull : ∀ pre x y, cfg.cond pre x y ≠ some ⊥)
    (hinf : ∀ pre x y, cfg.cond pre x y ≠ some ⊤) (hsort : SortsDesc cfg.argsortDesc) (hshrink : Shrinks cfg.cond)
    {x0 : P} {y0 : Y} {a0 : V} {size : ℕ} (hsize : 1 ≤ size) (shares : List (List (Cand P Y V))) (hfit : ∀ l ∈ shares, l.length ≤ size)
    (hacq : ∀ c ∈ shares.flatten, c.2.2.2 = cfg.cond [] c.1 c.2.1) :
    ∃ p, rankAndMerge cfg x0 y0 a0 size shares = .ok p ∧ Greedy cfg.cond [] shares.flatten size (nonEmpty p) := by
  have hall : ∀ ss : List (List (Cand P Y V)), (∀ c ∈ ss.flatten, c.2.2.2 ≠ none) → ∃ pools, rankAll cfg x0 y0 a0 size ss = .ok pools := by
    intro ss
    induction ss with
    | nil => intro _; exact ⟨[], rfl⟩
    | cons l ls ih =>
      intro hc
      obtain ⟨p, hp⟩ := C25_add_succeeds hnan hsort x0 y0 a0 hsize l (fun c h => hc c (by simp [h]))
      obtain ⟨ps, hps⟩ := ih (fun c h => hc c (by rw [List.flatten_cons]; exact List.mem_append_right _ h))
      exact ⟨p :: ps, by rw [rankAll, hp]; simp [hps]⟩
  have hnb : ∀ pre x y, val cfg pre x y ≠ ⊥ := by
    intro pre x y h0
    apply hnull pre x y
    rw [cond_val hnan]
    simp only
    rw [h0]
  obtain ⟨pools, hpools⟩ := hall shares (fun c hc => by rw [hacq c hc]; exact hnan _ _ _)
  refine ⟨mergePools cfg x0 y0 a0 size pools, by rw [rankAndMerge, hpools], ?_⟩
  obtain ⟨hlen, S, es, g1, g4, g5, g6, g7, g8, g9, g10⟩ := rankAll_fit hnan hsort hnb hsize shares pools hfit
    (fun c hc => by rw [hacq c hc]; exact ⟨hnull _ _ _, hinf _ _ _⟩) hpools
  by_cases hone : ∃ q, pools = [q]
  · obtain ⟨q, rfl⟩ := hone
    obtain ⟨l, rfl⟩ : ∃ l, shares = [l] := List.length_eq_one_iff.1 (by simpa using hlen.symm)
    have hq : addMany cfg (Pool.init x0 y0 a0 size) l = .ok q := by
      rw [rankAll] at hpools
      split at hpools
      · simp at hpools
      · simp [rankAll] at hpools
        subst hpools
        assumption
    simp only [mergePools, List.flatten_cons, List.flatten_nil, List.append_nil] at hacq ⊢
    exact C26_single_greedy_partial hnan hsort hnull hshrink hsize l (hfit l (by simp)) hacq q hq
  · have hf : (S.filter fun t => isFin (some t.2)) = S.filter fun t => decide (t.2 ≠ ⊥) := by
      apply List.filter_congr
      intro t ht
      simp [isFin, g10 t ht]
    have hm : mergePools cfg x0 y0 a0 size pools = bulkNew cfg x0 y0 a0 size ((occ S).map tup) := by
      unfold mergePools
      split
      · exact absurd ⟨_, rfl⟩ hone
      · simp only
        rw [g4, g5, g6, g7, g8, List.map_map, maskL_map, maskL_map, maskL_map, maskL_map]
        have : Gpr.maskL (S.map (isFin ∘ fun t => some t.2)) S = S.filter fun t => isFin (some t.2) := maskL_filter _ _
        rw [this, hf, bulkNew, occ]
        simp [List.map_map, Function.comp_def, tup]
    have hp : ((occ S).map tup).Perm shares.flatten := by rw [g1]; exact g9.map _
    rw [hm]
    exact greedy_perm (C26_bulk_greedy hnan hinf hshrink x0 y0 a0 hsize _ fun c hc => hacq c (hp.mem_iff.1 hc)) hp

/-- **C168**, partial: then the same points are selected with any two numbers of processes, in the same order, if different candidates never have the
same value. -/
theorem C168_same_partial {cfg : Cfg P Y V} (hnan : ∀ pre x y, cfg.cond pre x y ≠ none) (hnull : ∀ pre x y, cfg.cond pre x y ≠ some ⊥)
    (hinf : ∀ pre x y, cfg.cond pre x y ≠ some ⊤) (hsort : SortsDesc cfg.argsortDesc) (hshrink : Shrinks cfg.cond)
    {x0 : P} {y0 : Y} {a0 : V} {size : ℕ} (hsize : 1 ≤ size) (shares shares' : List (List (Cand P Y V))) (hsame : shares.flatten.Perm shares'.flatten)
    (hfit : ∀ l ∈ shares, l.length ≤ size) (hfit' : ∀ l ∈ shares', l.length ≤ size) (hacq : ∀ c ∈ shares.flatten, c.2.2.2 = cfg.cond [] c.1 c.2.1)
    (hdist : ∀ pre, ∀ c ∈ shares.flatten, ∀ c' ∈ shares.flatten, cfg.cond pre c.1 c.2.1 = cfg.cond pre c'.1 c'.2.1 → c = c') :
    ∃ p p', rankAndMerge cfg x0 y0 a0 size shares = .ok p ∧ rankAndMerge cfg x0 y0 a0 size shares' = .ok p' ∧ nonEmpty p = nonEmpty p' := by
  obtain ⟨p, h1, h2⟩ := C168_greedy_partial (x0 := x0) (y0 := y0) (a0 := a0) hnan hnull hinf hsort hshrink hsize shares hfit hacq
  obtain ⟨p', h1', h2'⟩ := C168_greedy_partial (x0 := x0) (y0 := y0) (a0 := a0) hnan hnull hinf hsort hshrink hsize shares' hfit'
    fun c hc => hacq c (hsame.mem_iff.2 hc)
  exact ⟨p, p', h1, h1', greedy_unique h2 hdist hsame h2'⟩

/-! ## More points than places -/

/-- Five candidates `0..4` in descending order of their values. -/
def pxCond (pre : List (ℕ × Unit)) (x : ℕ) (_ : Unit) : Option (Fin 1001) :=
  let m (k : ℕ) (t : List (Fin 1001)) : Fin 1001 := if k ∈ pre.map Prod.fst then t.getD x 1 else 999
  some (min ([100, 95, 90, 85, 80].getD x 1) (min (m 0 [1, 50, 40, 30, 70]) (min (m 1 [1, 1, 20, 10, 70]) (m 4 [1, 5, 4, 30, 1]))))

def pxP : Cfg ℕ Unit (Fin 1001) := ⟨pxCond, exSort⟩

theorem pxP_shrinks : Shrinks pxP.cond := by
  intro pre q x y
  simp only [pxP, pxCond, leV, geV, decide_eq_true_eq]
  have hm : ∀ (k : ℕ) (t : List (Fin 1001)), (∀ v ∈ t, v ≤ 999) →
      (if k ∈ (pre ++ [q]).map Prod.fst then t.getD x 1 else 999) ≤ (if k ∈ pre.map Prod.fst then t.getD x 1 else (999 : Fin 1001)) := by
    intro k t ht
    have hx : t.getD x 1 ≤ 999 := by
      rw [List.getD_eq_getElem?_getD]
      cases h : t[x]? with
      | none => simp
      | some v => exact ht v (List.mem_of_getElem? h)
    by_cases h1 : k ∈ pre.map Prod.fst
    · have h2 : k ∈ (pre ++ [q]).map Prod.fst := by rw [List.map_append]; exact List.mem_append_left _ h1
      rw [if_pos h1, if_pos h2]
    · rw [if_neg h1]
      split
      · exact hx
      · exact le_refl _
  refine min_le_min (le_refl _) (min_le_min (hm _ _ (by decide +kernel)) (min_le_min (hm _ _ (by decide +kernel)) (hm _ _ (by decide +kernel))))

/-- The candidates. -/
def pxC (x : ℕ) : Cand ℕ Unit (Fin 1001) := (x, (), (), pxP.cond [] x ())

/-- **C168** is false in general, and so is **C26** for `method="single sort acq"`: five candidates in descending order of their values, three places. A single
process fills its pool with 0, 1 and 2, drops 3, and then takes 4 in the second place, given which neither 1 nor 2 are as good as 3. Two processes keep
all of their candidates, and select 0, 4 and 3, as a greedy selection does. -/
theorem C168_counterexample :
    Shrinks pxP.cond ∧ ([0, 1, 2, 3, 4].map pxC).Pairwise (fun c c' => leV c'.2.2.2 c.2.2.2 = true) ∧
    ((rankAndMerge pxP 0 () 0 3 [[0, 1, 2, 3, 4].map pxC]).toOption.map fun p => (p.result 3).1) = some [0, 4, 1] ∧
    ((rankAndMerge pxP 0 () 0 3 [(Mpi.stepSplit 2 0 [0, 1, 2, 3, 4]).map pxC, (Mpi.stepSplit 2 1 [0, 1, 2, 3, 4]).map pxC]).toOption.map fun p => (p.result 3).1) = some [0, 4, 3] ∧
    (nonEmpty (bulkNew pxP 0 () 0 3 ([0, 1, 2, 3, 4].map pxC))).map (fun t => t.1.1) = [0, 4, 3] :=
  ⟨pxP_shrinks, by decide +kernel, by decide +kernel, by decide +kernel, by decide +kernel⟩

/-! ## Examples -/

/-- Three candidates in three processes, one of which has none, and in a single one. -/
example : ∃ p p', rankAndMerge dP 0 () 0 3 [[7, 30].map fun x => (x, (), (), dCond [] x ()), [], [12].map fun x => (x, (), (), dCond [] x ())] = .ok p ∧
    rankAndMerge dP 0 () 0 3 [[30, 12, 7].map fun x => (x, (), (), dCond [] x ())] = .ok p' ∧ nonEmpty p = nonEmpty p' := by
  refine C168_same_partial (by intro pre x y; simp [dP, dCond]) ?_ ?_ exSort_sorts ?_ (by omega) _ _ (by decide) (by simp) (by simp) (by simp [dP]) ?_
  · intro pre x y h
    simp only [dP, dCond, Option.some.injEq] at h
    have : 1 + x % 100 + 100 * (4 - pre.length) = 0 := congrArg Fin.val h
    omega
  · intro pre x y h
    simp only [dP, dCond, Option.some.injEq] at h
    have : 1 + x % 100 + 100 * (4 - pre.length) = 1000 := congrArg Fin.val h
    omega
  · intro pre q x y
    simp only [dP, dCond, leV, geV, decide_eq_true_eq, Fin.le_def, List.length_append, List.length_singleton]
    omega
  · intro pre c hc c' hc' heq
    simp only [dP, dCond, Option.some.injEq, Fin.mk.injEq] at heq
    simp at hc hc'
    rcases hc with rfl | rfl | rfl <;> rcases hc' with rfl | rfl | rfl <;> first | rfl | (exfalso; simp at heq)

example : ((rankAndMerge dP 0 () 0 3 [[7, 30].map fun x => (x, (), (), dCond [] x ()), [], [12].map fun x => (x, (), (), dCond [] x ())]).toOption.map
    fun p => (p.result 3).1) = some [30, 12, 7] := by decide +kernel

end GPry.Ranked

namespace GPry.NoraSpmd

open GPry Ranked Nora Spmd

variable {A V : Type} [LinearOrder V] [BoundedOrder V] [DecidableEq A]

/-- **C168**, gp_acquisition.py:961-1137: the first point that NORA proposes is the same with any two numbers of processes, if the points of the sample
that have not been proposed yet have different acquisition values (where they are not `-inf`); a batch of a single point is the same. -/
theorem C168_first {p p' : ℕ} (hp : 0 < p) (hp' : 0 < p') (q : Par A V) (hnan : ∀ pre x y, q.cfg.cond pre x y ≠ none)
    (hinf : ∀ pre x y, q.cfg.cond pre x y ≠ some ⊤) (hsort : SortsDesc q.cfg.argsortDesc) (horder : ∀ l, (q.order l).Perm l)
    (hacq : ∀ x, q.acq (q.pred x).1 (q.pred x).2 ≠ none ∧ q.acq (q.pred x).1 (q.pred x).2 ≠ some ⊤) (hn : q.n ≠ 0) (hm : q.m ≠ 0)
    (draw : Fin p → Prog AErr (Option (List (List A) × Option (List ℝ)))) (draw' : Fin p' → Prog AErr (Option (List (List A) × Option (List ℝ))))
    (d : List (List A) × Option (List ℝ)) (hd : Runs draw fun r => .ok (if r.val = 0 then some d else none))
    (hd' : Runs draw' fun r => .ok (if r.val = 0 then some d else none)) (s : Fin p → PState A) (t : Fin p' → PState A) (i : ℕ) (hi : ∀ r, (s r).i = i)
    (hi' : ∀ r, (t r).i = i) (hmain : t ⟨0, hp'⟩ = s ⟨0, hp⟩) (X proposed : List (List A))
    (hX : (sampleNow q.m i q.force = true ∧ X = d.1 ∧ proposed = []) ∨
      (sampleNow q.m i q.force = false ∧ proposed = (s ⟨0, hp⟩).proposed ∧
        ∃ o w, (s ⟨0, hp⟩).mc.orig = some o ∧ Nora.reweight q.pred q.inB o = .ok w ∧ X = w.X))
    (hdist : ∀ x ∈ candidates X proposed X, ∀ x' ∈ candidates X proposed X, q.acq (q.pred x).1 (q.pred x).2 ≠ some ⊥ →
      q.acq (q.pred x).1 (q.pred x).2 = q.acq (q.pred x').1 (q.pred x').2 → x = x') :
    ∃ (out out' : List (List A)) (s' : Fin p → PState A) (t' : Fin p' → PState A),
      Runs (fun r : Fin p => multiAdd p r q (draw r) (s r)) (fun r => .ok (s' r, out, out.map fun x => (q.pred x).1)) ∧
      Runs (fun r : Fin p' => multiAdd p' r q (draw' r) (t r)) (fun r => .ok (t' r, out', out'.map fun x => (q.pred x).1)) ∧
      out'.head? = out.head? ∧ (q.n = 1 → out' = out) := by
  obtain ⟨out, s', h1, -, -, -, -, h6, h7, h8, h9, h10, -⟩ := C121_multi_add_partial hp q hnan hinf hsort horder hacq hn hm draw d hd s i hi X proposed hX
  obtain ⟨out', t', k1, -, -, -, -, k6, k7, k8, k9, k10, -⟩ := C121_multi_add_partial hp' q hnan hinf hsort horder hacq hn hm draw' d hd' t i hi' X proposed
    (by rw [hmain]; exact hX)
  have hh : out'.head? = out.head? := by
    by_cases hex : ∃ x ∈ candidates X proposed X, q.acq (q.pred x).1 (q.pred x).2 ≠ some ⊥
    · obtain ⟨x, e, hx⟩ := h8 hex
      obtain ⟨x', e', hx'⟩ := k8 hex
      have hxo : x ∈ out := List.mem_of_mem_head? e
      have hxm := h6.subset hxo
      have hxm' := k6.subset (List.mem_of_mem_head? e')
      have a1 := hx x' hxm'
      have a2 := hx' x hxm
      have : q.acq (q.pred x).1 (q.pred x).2 = q.acq (q.pred x').1 (q.pred x').2 := by
        revert a1 a2
        cases q.acq (q.pred x).1 (q.pred x).2 <;> cases q.acq (q.pred x').1 (q.pred x').2 <;> simp [leV, geV]
        intro b1 b2
        exact le_antisymm b2 b1
      rw [e, e', hdist x hxm x' hxm' (h10 x hxo) this]
    · have hb : ∀ x ∈ candidates X proposed X, q.acq (q.pred x).1 (q.pred x).2 = some ⊥ := by
        intro x hx
        by_contra h
        exact hex ⟨x, hx, h⟩
      rw [h9 hb, k9 hb]
  refine ⟨out, out', s', t', h1, k1, hh, fun h => ?_⟩
  rw [h] at h7 k7
  match out, out', h7, k7, hh with
  | [], [], _, _, _ => rfl
  | [x], [x'], _, _, hh => simpa using hh
  | [], [x'], _, _, hh => simp at hh
  | [x], [], _, _, hh => simp at hh

/-! ## Example -/

/-- Two points, of which 6 is better. -/
noncomputable def twoPar : Par ℕ (Fin 5) :=
  { exPar none with pred := fun x => (if x = [6] then .fin 1 else .fin 0, 1), acq := fun y _ => if y = .fin 1 then some 3 else some 2 }

theorem twoPar_acq (x : List ℕ) : twoPar.acq (twoPar.pred x).1 (twoPar.pred x).2 = if x = [6] then some 3 else some 2 := by
  by_cases h : x = [6] <;> simp [twoPar, h]

/-- With three processes and with one. -/
example : ∃ (out out' : List (List ℕ)) (s' : Fin 3 → PState ℕ) (t' : Fin 1 → PState ℕ),
    Runs (fun r : Fin 3 => multiAdd 3 r twoPar (exDraw r) { exState r with i := 3 }) (fun r => .ok (s' r, out, out.map fun x => (twoPar.pred x).1)) ∧
    Runs (fun r : Fin 1 => multiAdd 1 r twoPar (.ret (some ([[5], [6]], none))) { exState 0 with i := 3 }) (fun r => .ok (t' r, out', out'.map fun x => (twoPar.pred x).1)) ∧
    out'.head? = out.head? ∧ (twoPar.n = 1 → out' = out) := by
  refine C168_first (p := 3) (p' := 1) (by norm_num) (by norm_num) twoPar (by simp [twoPar, exPar]) (fun _ _ _ => by simp only [twoPar, exPar]; decide) exSort_sorts
    (fun l => List.reverse_perm l) (fun x => by rw [twoPar_acq]; split <;> decide) (by decide) (by decide) exDraw _ ([[5], [6]], none) (Runs.ret _)
    (by simpa using Runs.ret _) (fun r => { exState r with i := 3 }) (fun _ => { exState 0 with i := 3 }) 3 (fun _ => rfl) (fun _ => rfl) rfl [[5], [6]] []
    (.inl ⟨rfl, rfl, rfl⟩) ?_
  have hc : candidates [[5], [6]] [] [[5], [6]] = [[5], [6]] := rfl
  rw [hc]
  intro x hx x' hx' _ he
  rw [twoPar_acq, twoPar_acq] at he
  simp only [List.mem_cons, List.not_mem_nil, or_false] at hx hx'
  rcases hx with rfl | rfl <;> rcases hx' with rfl | rfl <;> first | rfl | (exfalso; revert he; decide)

end GPry.NoraSpmd
