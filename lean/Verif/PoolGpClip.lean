import Verif.PoolGpNora

set_option linter.all false

/-!
# NORA with a classifier and `clip_factor=1`

No definitions of the code. With a `clip_factor` of 1 (gpr.py:279-282 allows it; the default is 1.1) nothing is predicted above the best value of the
training set, and C167 holds with a classifier.
-/

namespace GPry.PoolGp

open GPry Acq AcqPts Predict NoraSpmd Nora Ranked Spmd Proposed Gp Matrix Kernels

variable {d : ℕ}

theorem foldl_max_le (l : List (Ext ℝ)) (y : Ext ℝ) (v : ℝ) (h : l.foldl Ext.npMax2 y = .fin v) :
    (∀ w, y = .fin w → w ≤ v) ∧ ∀ w, Ext.fin w ∈ l → w ≤ v := by
  induction l generalizing y with
  | nil =>
    refine ⟨fun w hw => ?_, fun w hw => by cases hw⟩
    subst hw
    cases h
    exact le_rfl
  | cons z l ih =>
    obtain ⟨h1, h2⟩ := ih _ h
    refine ⟨?_, ?_⟩
    · rintro w rfl
      cases z with
      | fin u =>
        by_cases hu : w < u
        · exact hu.le.trans (h1 u (by simp [Ext.npMax2, Ext.isNan, Ext.lt, hu]))
        · exact h1 w (by simp [Ext.npMax2, Ext.isNan, Ext.lt, hu])
      | negInf => exact h1 w (by simp [Ext.npMax2, Ext.isNan, Ext.lt])
      | posInf =>
        exfalso
        obtain hb := Gpr.npMax_bad (Ext.fin w :: .posInf :: l) (.fin v) ⟨.posInf, by simp, .inr rfl⟩ (by simpa [Ext.npMax] using h)
        rcases hb with hb | hb <;> cases hb
      | nan =>
        exfalso
        obtain hb := Gpr.npMax_bad (Ext.fin w :: .nan :: l) (.fin v) ⟨.nan, by simp, .inl rfl⟩ (by simpa [Ext.npMax] using h)
        rcases hb with hb | hb <;> cases hb
    · intro w hw
      rcases List.mem_cons.1 hw with rfl | hw
      · cases y with
        | fin u =>
          by_cases hu : u < w
          · exact h1 w (by simp [Ext.npMax2, Ext.isNan, Ext.lt, hu])
          · exact (not_lt.1 hu).trans (h1 u (by simp [Ext.npMax2, Ext.isNan, Ext.lt, hu]))
        | negInf => exact h1 w (by simp [Ext.npMax2, Ext.isNan, Ext.lt])
        | posInf =>
          exfalso
          obtain hb := Gpr.npMax_bad (Ext.posInf :: .fin w :: l) (.fin v) ⟨.posInf, by simp, .inr rfl⟩ (by simpa [Ext.npMax] using h)
          rcases hb with hb | hb <;> cases hb
        | nan =>
          exfalso
          obtain hb := Gpr.npMax_bad (Ext.nan :: .fin w :: l) (.fin v) ⟨.nan, by simp, .inl rfl⟩ (by simpa [Ext.npMax] using h)
          rcases hb with hb | hb <;> cases hb
      · exact h2 w hw

theorem npMax_ge {l : List (Ext ℝ)} {v w : ℝ} (h : Ext.npMax l = some (.fin v)) (hw : Ext.fin w ∈ l) : w ≤ v := by
  cases l with
  | nil => cases hw
  | cons y l =>
    simp only [Ext.npMax, Option.some.injEq] at h
    obtain ⟨h1, h2⟩ := foldl_max_le l y v h
    rcases List.mem_cons.1 hw with rfl | hw
    · exact h1 w rfl
    · exact h2 w hw

/-- **C167**, **C14**: with a classifier and `clip_factor=1`, no point is predicted above the best value of the training set. -/
theorem C167_clip_one {g : Surr d} (hg : Ok g) {c : Svm (Fin d → ℝ)} {T : Ext ℝ} (hc : g.clf = some (c, T)) {v : ℝ}
    (hv : Ext.npMax (g.all.map Prod.snd) = some (.fin v)) (hclip : g.clip = some 1) (ign : Bool) (x : Fin d → ℝ) (m : Ext ℝ) (s : ℝ)
    (h : (g.st []).predict [x] ign = .ok ([m], [s])) (w : ℝ) (hw : m = .fin w) : w ≤ v := by
  obtain ⟨-, -, p⟩ := C14_predict (g.st []) rfl rfl hg.scale.le [x] ign _ _ h
  obtain ⟨-, b, -⟩ := p 0 (by simp) (by simp) (by simp)
  simp only [List.getElem_cons_zero] at b
  obtain ⟨w', e, -, c'⟩ := b (by rw [hw]; simp)
  rw [hw] at e
  cases e
  obtain ⟨t, ht, rfl⟩ := c' 1 hclip
  refine (min_le_right _ _).trans ?_
  obtain ⟨i, j, -, -, rfl⟩ := ht.eq
  rw [sub_self, zero_mul, add_zero]
  show num ((g.train []).get i).2 ≤ v
  have hmem : (g.train []).get i ∈ g.train [] := List.get_mem _ _
  generalize (g.train []).get i = r at hmem ⊢
  rw [train_below hc hv (by intro q hq; cases hq), List.append_nil, List.mem_filter] at hmem
  obtain ⟨h1, h2⟩ := hmem
  have hf : ∃ u, r.2 = .fin u := by
    generalize r.2 = y at h2
    cases y <;> simp [Gpr.isFiniteRaw, Ext.isFinite] at h2 ⊢
  obtain ⟨u, hu⟩ := hf
  rw [hu]
  exact npMax_ge hv (hu ▸ List.mem_map_of_mem h1)

/-- **C167** for NORA with a classifier and `clip_factor=1`, whatever the number of processes: `multi_add` returns a Kriging-believer ranking, and therefore
neither points of the training set nor a point twice, apart from points predicted further than the threshold below the best value. -/
theorem C167_nora_clip_one {p : ℕ} (hp : 0 < p) (k : Proposed.Kind) {zeta : ℝ} (hz : 0 < zeta) (baseline : ℝ) (g : Surr d) (hg : Ok g)
    {c : Svm (Fin d → ℝ)} {t v : ℝ} (hc : g.clf = some (c, .fin t)) (hv : Ext.npMax (g.all.map Prod.snd) = some (.fin v)) (hclip : g.clip = some 1)
    (q : Par ℝ EReal) (hpred : ∀ x, (g.st []).predict [pt d x] false = .ok ([(q.pred x).1], [(q.pred x).2]))
    (hacq : ∀ mu std, q.acq mu std = toV (k.f zeta g.noise baseline mu std))
    (hcond : q.cfg.cond = g.cond k zeta baseline) (hsort : SortsDesc q.cfg.argsortDesc)
    (hperm : ∀ l, (q.cfg.argsortDesc l).Perm (List.range l.length)) (horder : ∀ l, (q.order l).Perm l) (hn : q.n ≠ 0) (hm : q.m ≠ 0)
    (draw : Fin p → Prog AErr (Option (List (List ℝ) × Option (List ℝ)))) (D : List (List ℝ) × Option (List ℝ))
    (hd : Runs draw fun r => .ok (if r.val = 0 then some D else none)) (s : Fin p → PState ℝ) (i : ℕ) (hi : ∀ r, (s r).i = i)
    (X proposed : List (List ℝ))
    (hX : (sampleNow q.m i q.force = true ∧ X = D.1 ∧ proposed = []) ∨
      (sampleNow q.m i q.force = false ∧ proposed = (s ⟨0, hp⟩).proposed ∧
        ∃ o w, (s ⟨0, hp⟩).mc.orig = some o ∧ Nora.reweight q.pred q.inB o = .ok w ∧ X = w.X)) :
    ∃ (out : List (List ℝ)) (s' : Fin p → PState ℝ),
      Runs (fun r : Fin p => multiAdd p r q (draw r) (s r)) (fun r => .ok (s' r, out, out.map fun x => (q.pred x).1)) ∧
      out.Subperm (candidates X proposed X) ∧
      Believed (g.cond k zeta baseline) (out.map fun x => (x, (q.pred x).1)) ∧
      (∀ (a b : ℕ) (hab : a < b) (hb : b < out.length) (m : ℝ), (q.pred out[a]).1 = .fin m → v - t ≤ m → pt d out[b] ≠ pt d out[a]) ∧
      (∀ x ∈ out, ∀ (z : Fin d → ℝ) (w : ℝ), (z, Ext.fin w) ∈ g.all → v - t ≤ w → pt d x ≠ z) :=
  C167_nora_classifier_partial hp k hz baseline g hg hc hv q hpred hacq hcond hsort hperm horder hn hm draw D hd s i hi X proposed hX
    fun x _ m h => C167_clip_one hg hc hv hclip false (pt d x) _ _ (hpred x) m h

/-! ## Example -/

/-- `cxG` with `clip_factor=1`. -/
noncomputable def cxC : Surr 2 := { cxG with clip := some 1 }

theorem cxC_ok : Ok cxC := ⟨cxG_ok.kernel, cxG_ok.scale, cxG_ok.noise, cxG_ok.chol, cxG_ok.trained⟩

theorem cxC_predict (x : Fin 2 → ℝ) : ∃ s, (cxC.st []).predict [x] false = .ok ([.fin (min (x 0 / 2) 1)], [s]) := by
  refine ⟨cxC.M.std (cxC.chol _) (rawOf cxC.noise (cxC.train [])) x, ?_⟩
  have et : cxC.train [] = cxL := cxG_train
  have e : cxC.M.mean (cxC.chol _) (rawOf cxC.noise (cxC.train [])) x = x 0 / 2 := by
    rw [et]
    exact cxG_mean x
  have hce : ceiling 1 (List.ofFn (rawOf cxC.noise (cxC.train [])).y) = .ok 1 := by
    rw [et]
    show ceiling 1 (List.ofFn (rawOf (1 : ℝ) [(pt 2 [0, 2], Ext.fin (0 : ℝ)), (pt 2 [1, 0], .fin 1)]).y) = .ok 1
    simp [ceiling, rawOf, num, Tools.maxOf, Tools.minOf]
  have hm : (cxC.st []).means [x] = .ok [min (x 0 / 2) 1] := by
    unfold St.means
    dsimp only [Surr.st]
    rw [show cxC.clip = some 1 from rfl]
    dsimp only
    rw [hce]
    simp only [List.map_cons, List.map_nil, e]
  have hm' : ∀ l, l = [x] → (cxC.st []).means l = .ok [min (x 0 / 2) 1] := fun l hl => hl ▸ hm
  have hs : (cxC.st []).svm = some ⟨true, true, true, fun _ => true⟩ := rfl
  unfold St.predict
  rw [hs]
  simp [Svm.predict, maskGet, hm]
  simp [Surr.st, St.trustMask, maskSet, scatter, cxC, cxG]

noncomputable def exClipNora : Par ℝ EReal where
  n := 3
  m := 3
  force := false
  pred x := (.fin (min (pt 2 x 0 / 2) 1), (cxC_predict (pt 2 x)).choose)
  inB := none
  acq mu std := toV (Proposed.Kind.linear.f 1 1 1 mu std)
  cfg := { cond := cxC.cond .linear 1 1, argsortDesc := exSort }
  order := List.reverse
  x0 := [0, 0]
  a0 := 1

/-- The point (20, 0), at which the mean of the Gaussian process is 10, above the best value 1, is twice in the sample, with a point of the training set
(compare `C167_classifier_counterexample`). -/
example : ∃ (out : List (List ℝ)) (s' : Fin 2 → PState ℝ),
    Runs (fun r : Fin 2 => multiAdd 2 r exClipNora (.ret (if r.val = 0 then some ([[20, 0], [0, 2], [1, 3], [20, 0]], none) else none))
      { i := 0, mc := { orig := none, re := none, isRe := false }, proposed := [] })
      (fun r => .ok (s' r, out, out.map fun x => (exClipNora.pred x).1)) ∧ out.Nodup ∧ [0, 2] ∉ out := by
  have hC : ∀ x ∈ candidates [[20, 0], [0, 2], [1, 3], [20, 0]] [] [[20, 0], [0, 2], [1, 3], [20, 0]],
      x ∈ ([[20, 0], [0, 2], [1, 3], [20, 0]] : List (List ℝ)) := by
    intro x hx
    simpa [candidates] using hx
  have hm : ∀ x ∈ ([[20, 0], [0, 2], [1, 3], [20, 0]] : List (List ℝ)), 0 ≤ pt 2 x 0 := by
    intro x hx
    simp only [List.mem_cons, List.not_mem_nil, or_false] at hx
    rcases hx with rfl | rfl | rfl | rfl <;> norm_num [pt]
  obtain ⟨out, s', h1, h2, -, h4, h5⟩ := C167_nora_clip_one (p := 2) (by norm_num) .linear (zeta := 1) one_pos 1 cxC cxC_ok rfl cxG_max rfl exClipNora
    (fun x => (cxC_predict (pt 2 x)).choose_spec) (fun _ _ => rfl) rfl exSort_sorts (fun l => List.perm_insertionSort _ _)
    (fun l => List.reverse_perm l) (by decide) (by decide)
    (fun r => .ret (if r.val = 0 then some ([[20, 0], [0, 2], [1, 3], [20, 0]], none) else none)) ([[20, 0], [0, 2], [1, 3], [20, 0]], none) (Runs.ret _)
    (fun _ => { i := 0, mc := { orig := none, re := none, isRe := false }, proposed := [] }) 0 (fun _ => rfl) [[20, 0], [0, 2], [1, 3], [20, 0]] []
    (.inl ⟨rfl, rfl, rfl⟩)
  refine ⟨out, s', h1, ?_, ?_⟩
  · rw [List.nodup_iff_getElem?_ne_getElem?]
    intro a b hab hb heq
    have ha := hab.trans hb
    rw [List.getElem?_eq_getElem ha, List.getElem?_eq_getElem hb, Option.some.injEq] at heq
    refine h4 a b hab hb (min (pt 2 out[a] 0 / 2) 1) rfl ?_ (by rw [heq])
    have := hm _ (hC _ (h2.subset (List.getElem_mem ha)))
    exact le_min (by linarith) (by norm_num)
  · intro h
    exact h5 _ h (pt 2 [0, 2]) 0 (by simp [cxC, cxG]) (by norm_num) rfl

end GPry.PoolGp
