import Verif.PoolGpClf
import Verif.NoraMap

set_option linter.all false

/-!
# NORA with a classifier: batches are Kriging-believer rankings if no candidate is predicted above the best value

No definitions of the code. Two conditioned acquisition functions that agree on the candidates give the same batch.
-/

namespace GPry.NoraSpmd

open GPry Spmd Prog Nora Ranked

variable {A V : Type} [DecidableEq A] [LinearOrder V] [BoundedOrder V]

theorem mem_stepSplit {α : Type*} {p r : ℕ} {l : List α} {x : α} (h : x ∈ Mpi.stepSplit p r l) : x ∈ l := by
  unfold Mpi.stepSplit at h
  split_ifs at h
  · exact h
  · unfold Mpi.stride at h
    obtain ⟨i, -, hi⟩ := List.mem_filterMap.1 h
    exact List.mem_of_getElem? hi

theorem rankAndMerge_agree {P Y V : Type*} [LinearOrder V] [BoundedOrder V] {G : P × Y → Prop} {cfg cfg' : Cfg P Y V} (h : Agree G cfg cfg') (x0 : P) (y0 : Y)
    (a0 : V) {size : ℕ} (hs : 1 ≤ size) (shares : List (List (Cand P Y V))) (hg : ∀ l ∈ shares, ∀ c ∈ l, G (c.1, c.2.1)) :
    rankAndMerge cfg' x0 y0 a0 size shares = rankAndMerge cfg x0 y0 a0 size shares := by
  obtain ⟨r1, r2⟩ := rankAll_agree h x0 y0 a0 size shares hg
  unfold rankAndMerge
  rw [r1]
  cases hr : rankAll cfg x0 y0 a0 size shares with
  | error e => rfl
  | ok ps =>
    dsimp only
    rw [(mergePools_agree h x0 y0 a0 hs (r2 ps hr)).1]

theorem second_agree {p : ℕ} (hp : 0 < p) (q : Par A V) (cfg : Cfg (List A) (Ext ℝ) V) {G : List A × Ext ℝ → Prop} (h : Agree G cfg q.cfg)
    (horder : ∀ l, (q.order l).Perm l) (hn : q.n ≠ 0) (i : ℕ) (s1 : Fin p → PState A) (X : List (List A)) (hX : SampleOf q (s1 ⟨0, hp⟩) X)
    (hG : ∀ x ∈ candidates X (s1 ⟨0, hp⟩).proposed X, G (x, (q.pred x).1)) :
    (∃ a : Fin p → PState A × List (List A) × List (Ext ℝ), Runs (fun r : Fin p => second p r { q with cfg := cfg } i (s1 r)) (fun r => .ok (a r)) ∧
      Runs (fun r : Fin p => second p r q i (s1 r)) fun r => .ok (a r)) ∨ Fails (fun r : Fin p => second p r { q with cfg := cfg } i (s1 r)) := by
  obtain ⟨b1, -⟩ := runs_second_any hp q i s1 X hX rfl
  obtain ⟨c1, c2⟩ := runs_second_any hp { q with cfg := cfg } i s1 X hX rfl
  have e := rankAndMerge_agree h q.x0 (.fin 0) q.a0 (size := q.n) (by omega)
    (List.ofFn fun r : Fin p => q.order ((Mpi.stepSplit p r (candidates X (s1 ⟨0, hp⟩).proposed X)).map (cand q))) (by
      intro l hl c hc
      obtain ⟨r, rfl⟩ := (List.mem_ofFn' _ _).1 hl
      obtain ⟨x, hx, rfl⟩ := List.mem_map.1 ((horder _).mem_iff.1 hc)
      exact hG x (mem_stepSplit hx))
  cases hQ : rankAndMerge cfg q.x0 (.fin 0) q.a0 q.n
      (List.ofFn fun r : Fin p => q.order ((Mpi.stepSplit p r (candidates X (s1 ⟨0, hp⟩).proposed X)).map (cand q))) with
  | error er => exact .inr (c2 er hQ)
  | ok Q => exact .inl ⟨_, c1 Q hQ, b1 Q (e.trans hQ)⟩

/-- If two conditioned acquisition functions agree on the candidates and their predictions, `multi_add` returns the same with both of them. -/
theorem multiAdd_agree {p : ℕ} (hp : 0 < p) (q : Par A V) (cfg : Cfg (List A) (Ext ℝ) V) {G : List A × Ext ℝ → Prop} (h : Agree G cfg q.cfg)
    (horder : ∀ l, (q.order l).Perm l) (hn : q.n ≠ 0) (hm : q.m ≠ 0)
    (draw : Fin p → Prog AErr (Option (List (List A) × Option (List ℝ)))) (d : List (List A) × Option (List ℝ))
    (hd : Runs draw fun r => .ok (if r.val = 0 then some d else none)) (s : Fin p → PState A) (i : ℕ) (hi : ∀ r, (s r).i = i)
    (X proposed : List (List A))
    (hX : (sampleNow q.m i q.force = true ∧ X = d.1 ∧ proposed = []) ∨
      (sampleNow q.m i q.force = false ∧ proposed = (s ⟨0, hp⟩).proposed ∧
        ∃ o w, (s ⟨0, hp⟩).mc.orig = some o ∧ Nora.reweight q.pred q.inB o = .ok w ∧ X = w.X))
    (hG : ∀ x ∈ candidates X proposed X, G (x, (q.pred x).1)) {a : Fin p → PState A × List (List A) × List (Ext ℝ)}
    (hr : Runs (fun r : Fin p => multiAdd p r { q with cfg := cfg } (draw r) (s r)) fun r => .ok (a r)) :
    Runs (fun r : Fin p => multiAdd p r q (draw r) (s r)) fun r => .ok (a r) := by
  have e1 : (fun r : Fin p => multiAdd p r { q with cfg := cfg } (draw r) (s r)) =
      fun r : Fin p => (if sampleNow q.m i q.force then newSample p r { q with cfg := cfg } (draw r) (s r) else oldSample p r { q with cfg := cfg } (s r)) >>=
        fun s1 => second p r { q with cfg := cfg } i s1 := by
    funext r; rw [multiAdd_eq _ _ { q with cfg := cfg } _ _ hn hm, hi]
  have e2 : (fun r : Fin p => multiAdd p r q (draw r) (s r)) =
      fun r : Fin p => (if sampleNow q.m i q.force then newSample p r q (draw r) (s r) else oldSample p r q (s r)) >>= fun s1 => second p r q i s1 := by
    funext r; rw [multiAdd_eq _ _ q _ _ hn hm, hi]
  rw [e1] at hr
  rw [e2]
  rcases hX with ⟨hnew, rfl, rfl⟩ | ⟨hold, rfl, o, w, ho, hw, rfl⟩
  · simp only [hnew, if_true] at hr ⊢
    have r1 := runs_newSample hp { q with cfg := cfg } draw d hd s
    have r2 := runs_newSample hp q draw d hd s
    rcases second_agree hp q cfg h horder hn i (fun r => afterNew q d (s r) r) d.1 (sampleOf_new q d _) hG with ⟨a', h1, h2⟩ | h1
    · rw [Runs.det hp hr (Runs.bind r1 h1)]
      exact Runs.bind r2 h2
    · exact ((Runs.bind_fails r1 h1).not_runs hp hr).elim
  · simp only [hold] at hr ⊢
    have r1 := (runs_oldSample hp { q with cfg := cfg } s o ho).1 w hw
    have r2 := (runs_oldSample hp q s o ho).1 w hw
    rcases second_agree hp q cfg h horder hn i (fun r => afterOld w (s r) r) w.X (sampleOf_old q o w hw _) hG with ⟨a', h1, h2⟩ | h1
    · rw [Runs.det hp hr (Runs.bind r1 h1)]
      exact Runs.bind r2 h2
    · exact ((Runs.bind_fails r1 h1).not_runs hp hr).elim

end GPry.NoraSpmd

namespace GPry.PoolGp

open GPry Acq AcqPts Predict NoraSpmd Nora Ranked Spmd Proposed Gp Matrix Kernels

variable {d : ℕ}

/-- Values not above `v`; the other ones are replaced. -/
noncomputable def cap (v : ℝ) : Ext ℝ → Ext ℝ
  | .fin w => .fin (min w v)
  | _ => .negInf

theorem cap_below (v : ℝ) (y : Ext ℝ) : cap v y = .negInf ∨ ∃ w, cap v y = .fin w ∧ w ≤ v := by
  cases y with
  | fin w => exact .inr ⟨_, rfl, min_le_right _ _⟩
  | _ => exact .inl rfl

theorem cap_eq {v : ℝ} {y : Ext ℝ} (h : y = .negInf ∨ ∃ w, y = .fin w ∧ w ≤ v) : cap v y = y := by
  rcases h with rfl | ⟨w, rfl, hw⟩
  · rfl
  · simp [cap, hw]

/-- **C167** for NORA with a classifier, whatever the number of processes (partial: no candidate is predicted above the best value of the training set):
`multi_add` returns a Kriging-believer ranking, and therefore neither points of the training set nor a point twice, apart from points predicted further than the
threshold below the best value. -/
theorem C167_nora_classifier_partial {p : ℕ} (hp : 0 < p) (k : Proposed.Kind) {zeta : ℝ} (hz : 0 < zeta) (baseline : ℝ) (g : Surr d) (hg : Ok g)
    {c : Svm (Fin d → ℝ)} {t v : ℝ} (hc : g.clf = some (c, .fin t)) (hv : Ext.npMax (g.all.map Prod.snd) = some (.fin v))
    (q : Par ℝ EReal) (hpred : ∀ x, (g.st []).predict [pt d x] false = .ok ([(q.pred x).1], [(q.pred x).2]))
    (hacq : ∀ mu std, q.acq mu std = toV (k.f zeta g.noise baseline mu std))
    (hcond : q.cfg.cond = g.cond k zeta baseline) (hsort : SortsDesc q.cfg.argsortDesc)
    (hperm : ∀ l, (q.cfg.argsortDesc l).Perm (List.range l.length)) (horder : ∀ l, (q.order l).Perm l) (hn : q.n ≠ 0) (hm : q.m ≠ 0)
    (draw : Fin p → Prog AErr (Option (List (List ℝ) × Option (List ℝ)))) (D : List (List ℝ) × Option (List ℝ))
    (hd : Runs draw fun r => .ok (if r.val = 0 then some D else none)) (s : Fin p → PState ℝ) (i : ℕ) (hi : ∀ r, (s r).i = i)
    (X proposed : List (List ℝ))
    (hX : (sampleNow q.m i q.force = true ∧ X = D.1 ∧ proposed = []) ∨
      (sampleNow q.m i q.force = false ∧ proposed = (s ⟨0, hp⟩).proposed ∧
        ∃ o w, (s ⟨0, hp⟩).mc.orig = some o ∧ Nora.reweight q.pred q.inB o = .ok w ∧ X = w.X))
    (hlow : ∀ x ∈ candidates X proposed X, ∀ m, (q.pred x).1 = .fin m → m ≤ v) :
    ∃ (out : List (List ℝ)) (s' : Fin p → PState ℝ),
      Runs (fun r : Fin p => multiAdd p r q (draw r) (s r)) (fun r => .ok (s' r, out, out.map fun x => (q.pred x).1)) ∧
      out.Subperm (candidates X proposed X) ∧
      Believed (g.cond k zeta baseline) (out.map fun x => (x, (q.pred x).1)) ∧
      (∀ (a b : ℕ) (hab : a < b) (hb : b < out.length) (m : ℝ), (q.pred out[a]).1 = .fin m → v - t ≤ m → pt d out[b] ≠ pt d out[a]) ∧
      (∀ x ∈ out, ∀ (z : Fin d → ℝ) (w : ℝ), (z, Ext.fin w) ∈ g.all → v - t ≤ w → pt d x ≠ z) := by
  have hmu : ∀ x, ((q.pred x).1 = .negInf ∨ ∃ m, (q.pred x).1 = .fin m) :=
    fun x => (pred_spec (g.st []) rfl rfl hg.scale.le _ _ _ (hpred x)).2.1
  have hne := cond_ne hg k hz baseline
  have hmu' : ∀ x ∈ candidates X proposed X, (q.pred x).1 = .negInf ∨ ∃ m, (q.pred x).1 = .fin m ∧ m ≤ v := by
    intro x hx
    rcases hmu x with h | ⟨m, h⟩
    · exact .inl h
    · exact .inr ⟨m, h, hlow x hx m h⟩
  let cfg1 : Cfg (List ℝ) (Ext ℝ) EReal := ⟨fun pre x y => g.cond k zeta baseline (pre.map (Prod.map id (cap v))) x y, q.cfg.argsortDesc⟩
  have hcap : ∀ l : List (List ℝ × Ext ℝ), (∀ r ∈ l, r.2 = .negInf ∨ ∃ m, r.2 = .fin m ∧ m ≤ v) → l.map (Prod.map id (cap v)) = l := by
    intro l hl
    conv_rhs => rw [← List.map_id l]
    apply List.map_congr_left
    intro r hr
    exact Prod.ext rfl (cap_eq (hl r hr))
  have hag : Agree (fun r : List ℝ × Ext ℝ => r.2 = .negInf ∨ ∃ m, r.2 = .fin m ∧ m ≤ v) cfg1 q.cfg := by
    refine ⟨fun pre x y hpre _ => ?_, rfl, hperm⟩
    rw [hcond]
    show _ = g.cond k zeta baseline (pre.map (Prod.map id (cap v))) x y
    rw [hcap pre hpre]
  have hsh : Shrinks cfg1.cond := by
    intro pre r x y
    show leV (g.cond k zeta baseline ((pre ++ [r]).map (Prod.map id (cap v))) x y) (g.cond k zeta baseline (pre.map (Prod.map id (cap v))) x y) = true
    rw [List.map_append]
    refine C167_shrinks_classifier_partial hg hc hv k hz baseline _ _ ?_ x y
    intro u hu
    rw [← List.map_singleton (f := Prod.map id (cap v)), ← List.map_append, List.map_map] at hu
    obtain ⟨u', -, rfl⟩ := List.mem_map.1 hu
    exact cap_below v _
  obtain ⟨out, s', h1, _, _, _, _, h6, _, _, _, _, h11⟩ := C121_multi_add_partial hp { q with cfg := cfg1 } (fun a b c => (hne _ b c).1)
    (fun a b c => (hne _ b c).2) hsort horder
    (fun x => by show q.acq _ _ ≠ none ∧ _; rw [hacq]; exact (f_above k hz g.noise baseline _ _ (hmu x)).1) hn hm draw D hd s i hi X proposed hX
  have hsub : ∀ x ∈ out, x ∈ candidates X proposed X := fun x hx => h6.subset hx
  have hB : Believed cfg1.cond (out.map fun x => (x, (q.pred x).1)) := by
    refine h11 hsh fun x => ?_
    have h := C15_predict_std (g.st []) _ false _ _ (hpred x)
    rw [← List.map_nil (f := fun q : List ℝ × Ext ℝ => (pt d q.1, q.2))] at h
    show q.acq _ _ = g.cond k zeta baseline [] x (q.pred x).1
    rw [hacq, cond_fin k zeta baseline h (hmu x)]
  have hpre : ∀ j, ∀ r ∈ (out.map fun x => (x, (q.pred x).1)).take j, r.2 = .negInf ∨ ∃ m, r.2 = .fin m ∧ m ≤ v := by
    intro j r hr
    obtain ⟨x, hx, rfl⟩ := List.mem_map.1 (List.mem_of_mem_take hr)
    exact hmu' x (hsub x hx)
  have hb : Believed (g.cond k zeta baseline) (out.map fun x => (x, (q.pred x).1)) := by
    intro j r hr
    obtain ⟨h2, h3⟩ := hB j r hr
    have e : ∀ x y, cfg1.cond ((out.map fun x => (x, (q.pred x).1)).take j) x y =
        g.cond k zeta baseline ((out.map fun x => (x, (q.pred x).1)).take j) x y := by
      intro x y
      show g.cond k zeta baseline (((out.map fun x => (x, (q.pred x).1)).take j).map (Prod.map id (cap v))) x y = _
      rw [hcap _ (hpre j)]
    simp only [e] at h2 h3
    exact ⟨h2, h3⟩
  -- what is at a point of the batch
  have hat : ∀ (j : ℕ) (hj : j < out.length) (w : ℝ), v - t ≤ w →
      (pt d out[j], Ext.fin w) ∉ g.all ++ (((out.map fun x => (x, (q.pred x).1)).take j).map fun r => (pt d r.1, r.2)) := by
    intro j hj w hw hmem
    obtain ⟨h2, -⟩ := hb j (out[j], (q.pred out[j]).1) (by simp [hj])
    apply h2
    refine C167_lie_classifier_partial hg hc hv k hz baseline _ ?_ _ w hw hmem _
    intro u hu
    obtain ⟨u', hu', rfl⟩ := List.mem_map.1 hu
    exact hpre j u' hu'
  refine ⟨out, s', multiAdd_agree hp q cfg1 hag horder hn hm draw D hd s i hi X proposed hX hmu' h1, h6, hb, ?_, ?_⟩
  · intro a b hab hbl m h2 h3 heq
    apply hat b hbl m h3
    rw [List.mem_append]
    right
    refine List.mem_map.2 ⟨(out[a], (q.pred out[a]).1), ?_, by rw [heq, h2]⟩
    rw [← List.map_take]
    exact List.mem_map.2 ⟨out[a], List.mem_take_iff_getElem.2 ⟨a, by omega, rfl⟩, rfl⟩
  · intro x hx z w hzw hw heq
    obtain ⟨j, hj, rfl⟩ := List.mem_iff_getElem.1 hx
    exact hat j hj w hw (List.mem_append_left _ (heq ▸ hzw))

/-! ## Example -/

noncomputable def exClfNora : Par ℝ EReal where
  n := 3
  m := 3
  force := false
  pred x := (.fin (pt 2 x 0 / 2), (cxG_predict (pt 2 x)).choose)
  inB := none
  acq mu std := toV (Proposed.Kind.linear.f 1 1 1 mu std)
  cfg := { cond := cxG.cond .linear 1 1, argsortDesc := exSort }
  order := List.reverse
  x0 := [0, 0]
  a0 := 1

/-- The point (2, 0), predicted as high as the best value, is twice in the sample, with a point of the training set. -/
example : ∃ (out : List (List ℝ)) (s' : Fin 2 → PState ℝ),
    Runs (fun r : Fin 2 => multiAdd 2 r exClfNora (.ret (if r.val = 0 then some ([[2, 0], [0, 2], [1, 3], [2, 0]], none) else none))
      { i := 0, mc := { orig := none, re := none, isRe := false }, proposed := [] })
      (fun r => .ok (s' r, out, out.map fun x => (exClfNora.pred x).1)) ∧ out.Nodup ∧ [0, 2] ∉ out := by
  have hC : ∀ x ∈ candidates [[2, 0], [0, 2], [1, 3], [2, 0]] [] [[2, 0], [0, 2], [1, 3], [2, 0]], x ∈ ([[2, 0], [0, 2], [1, 3], [2, 0]] : List (List ℝ)) := by
    intro x hx
    simpa [candidates] using hx
  have hm : ∀ x ∈ ([[2, 0], [0, 2], [1, 3], [2, 0]] : List (List ℝ)), 0 ≤ pt 2 x 0 ∧ pt 2 x 0 ≤ 2 := by
    intro x hx
    simp only [List.mem_cons, List.not_mem_nil, or_false] at hx
    rcases hx with rfl | rfl | rfl | rfl <;> norm_num [pt]
  obtain ⟨out, s', h1, h2, -, h4, h5⟩ := C167_nora_classifier_partial (p := 2) (by norm_num) .linear (zeta := 1) one_pos 1 cxG cxG_ok rfl cxG_max exClfNora
    (fun x => (cxG_predict (pt 2 x)).choose_spec) (fun _ _ => rfl) rfl exSort_sorts (fun l => List.perm_insertionSort _ _)
    (fun l => List.reverse_perm l) (by decide) (by decide)
    (fun r => .ret (if r.val = 0 then some ([[2, 0], [0, 2], [1, 3], [2, 0]], none) else none)) ([[2, 0], [0, 2], [1, 3], [2, 0]], none) (Runs.ret _)
    (fun _ => { i := 0, mc := { orig := none, re := none, isRe := false }, proposed := [] }) 0 (fun _ => rfl) [[2, 0], [0, 2], [1, 3], [2, 0]] []
    (.inl ⟨rfl, rfl, rfl⟩) (by
      intro x hx m h
      obtain rfl : pt 2 x 0 / 2 = m := by simpa [exClfNora] using h
      linarith [(hm x (hC x hx)).2])
  refine ⟨out, s', h1, ?_, ?_⟩
  · rw [List.nodup_iff_getElem?_ne_getElem?]
    intro a b hab hb heq
    have ha := hab.trans hb
    rw [List.getElem?_eq_getElem ha, List.getElem?_eq_getElem hb, Option.some.injEq] at heq
    refine h4 a b hab hb (pt 2 out[a] 0 / 2) rfl ?_ (by rw [heq])
    linarith [(hm _ (hC _ (h2.subset (List.getElem_mem ha)))).1]
  · intro h
    exact h5 _ h (pt 2 [0, 2]) 0 (by simp [cxG]) (by norm_num) rfl

end GPry.PoolGp
