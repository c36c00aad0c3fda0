import Verif.Copy
import Verif.PredictProps
import Verif.GprEx

set_option linter.all false

namespace GPry.Copy

open Gpr

variable {P PX Θ K B : Type*} [Field K] [LinearOrder K]

theorem updateModel_pre (cfg : Cfg P PX Θ K) (st : State P PX Θ K) :
    (updateModel cfg st).1.px = st.px ∧ (updateModel cfg st).1.py = st.py := by
  unfold updateModel
  split
  · exact ⟨rfl, rfl⟩
  · split
    · exact ⟨rfl, rfl⟩
    · split
      · exact ⟨rfl, rfl⟩
      · split <;> exact ⟨rfl, rfl⟩

theorem fitHyper_pre (cfg : Cfg P PX Θ K) (n : Option ℕ) (st : State P PX Θ K) :
    (fitHyper cfg n st).1.px = st.px ∧ (fitHyper cfg n st).1.py = st.py := by
  unfold fitHyper
  dsimp only
  split_ifs
  · cases st.theta with
    | none => exact ⟨rfl, rfl⟩
    | some th => exact updateModel_pre cfg st
  · exact ⟨rfl, rfl⟩
  · have h := updateModel_pre cfg { st with theta := some (cfg.optimise st.xTrain' st.yTrain' st.noiseVar st.theta (n.getD cfg.nRestarts)) }
    revert h
    generalize updateModel cfg _ = r
    rcases r with ⟨r, _ | e⟩ <;> exact id

theorem appendFit_pre (cfg : Cfg P PX Θ K) (st : State P PX Θ K) (c : Call P K) (mask : List Bool) (nz : List (Ext K)) :
    (appendFit cfg st c mask nz).1.px = st.px ∧ (appendFit cfg st c mask nz).1.py = st.py := by
  unfold appendFit
  dsimp only
  split
  · exact ⟨rfl, rfl⟩
  · split
    · exact ⟨rfl, rfl⟩
    · split
      · obtain ⟨h1, h2⟩ := fitHyper_pre cfg (by assumption) _
        rw [h1, h2]; exact ⟨rfl, rfl⟩
      · obtain ⟨h1, h2⟩ := updateModel_pre cfg _
        rw [h1, h2]; exact ⟨rfl, rfl⟩

/-- The call does not fit the preprocessors, or fitting them does nothing. -/
def Quiet (cfg : Cfg P PX Θ K) (c : Call P K) : Prop :=
  (c.fit = .no ∧ c.fitClf = false) ∨
    ((∀ px l y, cfg.fitX px l y = px) ∧ ∀ py l y r, cfg.fitY py l y = .ok r → r = py)

theorem appendMid_pre (cfg : Cfg P PX Θ K) (st : State P PX Θ K) (c : Call P K) (fc : Bool) (thr : Ext K) (mask : List Bool)
    (hq : fc = false ∨ ((∀ px l y, cfg.fitX px l y = px) ∧ ∀ py l y r, cfg.fitY py l y = .ok r → r = py)) :
    (appendMid cfg st c fc thr mask).1.px = st.px ∧ (appendMid cfg st c fc thr mask).1.py = st.py := by
  unfold appendMid
  split
  · exact ⟨rfl, rfl⟩
  dsimp only
  have hst : (if fc = true then { st with px := cfg.fitX st.px (maskL mask st.xAll) (maskL mask st.yAll) } else st) = st := by
    rcases hq with rfl | ⟨h, _⟩
    · rfl
    · rw [h]; split <;> rfl
  rw [hst]
  split
  · exact ⟨rfl, rfl⟩
  rename_i py hpy
  have hpy' : py = st.py := by
    rcases hq with rfl | ⟨_, h⟩
    · simpa using hpy.symm
    · split at hpy
      · exact h _ _ _ _ hpy
      · simpa using hpy.symm
  subst hpy'
  split
  · exact ⟨rfl, rfl⟩
  split
  · exact ⟨rfl, rfl⟩
  -- the classifier
  split
  · rename_i st' e hsvm
    have : st'.px = st.px ∧ st'.py = st.py := by
      split at hsvm
      · split at hsvm
        · split at hsvm
          · cases hsvm; exact ⟨rfl, rfl⟩
          · split at hsvm
            · cases hsvm; exact ⟨rfl, rfl⟩
            · split at hsvm
              · cases hsvm
              · cases hsvm; exact ⟨rfl, rfl⟩
        · cases hsvm
      · cases hsvm
    exact this
  · rename_i st' lm hsvm
    have : st'.px = st.px ∧ st'.py = st.py := by
      split at hsvm
      · split at hsvm
        · split at hsvm
          · cases hsvm
          · split at hsvm
            · cases hsvm
            · split at hsvm
              · cases hsvm; exact ⟨rfl, rfl⟩
              · cases hsvm
        · cases hsvm; exact ⟨rfl, rfl⟩
      · cases hsvm; exact ⟨rfl, rfl⟩
    split
    · exact this
    · obtain ⟨h1, h2⟩ := appendFit_pre cfg { st' with nLastFinite := lm.count true } c mask (by assumption)
      rw [h1, h2]
      exact this

theorem append_pre (cfg : Cfg P PX Θ K) (st : State P PX Θ K) (c : Call P K) (hq : Quiet cfg c) :
    (Gpr.append cfg st c).1.px = st.px ∧ (Gpr.append cfg st c).1.py = st.py := by
  have hq' : (c.fitClf || c.fit != .no) = false ∨
      ((∀ px l y, cfg.fitX px l y = px) ∧ ∀ py l y r, cfg.fitY py l y = .ok r → r = py) := by
    rcases hq with ⟨h1, h2⟩ | h
    · left; rw [h1, h2]; rfl
    · exact Or.inr h
  unfold Gpr.append
  split
  · exact ⟨rfl, rfl⟩
  dsimp only
  split
  · exact ⟨rfl, rfl⟩
  split
  · exact ⟨rfl, rfl⟩
  split
  · exact ⟨rfl, rfl⟩
  split
  · split
    · exact ⟨rfl, rfl⟩
    · split
      · exact ⟨rfl, rfl⟩
      · obtain ⟨h1, h2⟩ := appendMid_pre cfg _ c _ _ _ hq'
        rw [h1, h2]; exact ⟨rfl, rfl⟩
  · obtain ⟨h1, h2⟩ := appendMid_pre cfg _ c _ _ _ hq'
    rw [h1, h2]; exact ⟨rfl, rfl⟩

theorem obj_append_pre (cfg : Cfg P PX Θ K) (region : Option (List P → List (Ext K) → B)) (o : Obj P PX Θ K B) (c : Call P K)
    (hq : Quiet cfg c) : (o.append cfg region c).1.st.px = o.st.px ∧ (o.append cfg region c).1.st.py = o.st.py := by
  have h := append_pre cfg o.st c hq
  unfold Obj.append
  revert h
  generalize Gpr.append cfg o.st c = r
  rcases r with ⟨r, _ | e⟩
  · intro h
    dsimp only
    split
    · exact h
    · split <;> exact h
  · exact id

theorem share_eq {src dst : Obj P PX Θ K B} (h1 : src.st.px = dst.st.px) (h2 : src.st.py = dst.st.py) : share src dst = dst := by
  unfold share
  rw [h1, h2]

theorem pair_run (cfg : Cfg P PX Θ K) (region : Option (List P → List (Ext K) → B)) : ∀ (h : List (Bool × Call P K)) (w : Pair P PX Θ K B),
    (∀ q ∈ h, Quiet cfg q.2) → w.orig.st.px = w.copy.st.px → w.orig.st.py = w.copy.st.py →
    w.run cfg region h = ⟨w.orig.run cfg region ((h.filter fun q => !q.1).map Prod.snd),
      w.copy.run cfg region ((h.filter fun q => q.1).map Prod.snd)⟩
  | [], w, _, _, _ => rfl
  | (b, c) :: l, w, hq, h1, h2 => by
    have hqc := hq (b, c) List.mem_cons_self
    have hql : ∀ q ∈ l, Quiet cfg q.2 := fun q hm => hq q (List.mem_cons_of_mem _ hm)
    rw [Pair.run]
    cases b with
    | true =>
      obtain ⟨e1, e2⟩ := obj_append_pre cfg region w.copy c hqc
      have hw : w.append cfg region true c = ⟨w.orig, (w.copy.append cfg region c).1⟩ := by
        simp only [Pair.append, if_true]
        rw [share_eq (e1.trans h1.symm) (e2.trans h2.symm)]
      rw [hw, pair_run cfg region l ⟨w.orig, (w.copy.append cfg region c).1⟩ hql (h1.trans e1.symm) (h2.trans e2.symm)]
      simp [Obj.run]
    | false =>
      obtain ⟨e1, e2⟩ := obj_append_pre cfg region w.orig c hqc
      have hw : w.append cfg region false c = ⟨(w.orig.append cfg region c).1, w.copy⟩ := by
        simp only [Pair.append, Bool.false_eq_true, if_false]
        rw [share_eq (e1.trans h1) (e2.trans h2)]
      rw [hw, pair_run cfg region l ⟨(w.orig.append cfg region c).1, w.copy⟩ hql (e1.trans h1) (e2.trans h2)]
      simp [Obj.run]

/-- **C20**, partial: after any history of appends to the original and to its copy, each is what its own appends alone make
of it, if all of them are done without fitting (`fit_gpr=False, fit_classifier=False`, as in the acquisition) or the
preprocessors do not adapt to the training set. (Otherwise: `C20_sharing_counterexample`.) -/
theorem C20_independent_partial (cfg : Cfg P PX Θ K) (region : Option (List P → List (Ext K) → B)) (o : Obj P PX Θ K B)
    (h : List (Bool × Call P K)) (hq : ∀ q ∈ h, Quiet cfg q.2) :
    ((⟨o, o.deepcopy⟩ : Pair P PX Θ K B).run cfg region h).orig = o.run cfg region ((h.filter fun q => !q.1).map Prod.snd) ∧
    ((⟨o, o.deepcopy⟩ : Pair P PX Θ K B).run cfg region h).copy =
      o.deepcopy.run cfg region ((h.filter fun q => q.1).map Prod.snd) := by
  rw [pair_run cfg region h _ hq rfl rfl]
  exact ⟨rfl, rfl⟩

/-- The regressor after its first call; afterwards the copy, and then the original, gets new points. -/
example : ((⟨⟨((run exCfgY ex0 [callA]).getD ex0), 11 / 10, none⟩, (⟨((run exCfgY ex0 [callA]).getD ex0), 11 / 10, none⟩ :
    Obj ℕ Unit ℕ ℚ Unit).deepcopy⟩ : Pair ℕ Unit ℕ ℚ Unit).run exCfgY none [(true, callQuick), (false, callQuick)]).orig =
    (⟨((run exCfgY ex0 [callA]).getD ex0), 11 / 10, none⟩ : Obj ℕ Unit ℕ ℚ Unit).run exCfgY none [callQuick] :=
  (C20_independent_partial exCfgY none _ [(true, callQuick), (false, callQuick)] (by
    intro q hq
    simp only [List.mem_cons, List.not_mem_nil, or_false] at hq
    rcases hq with rfl | rfl <;> exact Or.inl ⟨rfl, rfl⟩)).1

/-- **C20**, partial: with the default clip factor and without trust bounds, the copy predicts as the original: everything
that predictions depend on is the same. -/
theorem C20_faithful_partial (o : Obj P PX Θ K B) (hc : o.clip = 11 / 10) (ht : o.trust = none) : o.deepcopy.view = o.view := by
  unfold Obj.deepcopy Obj.view
  rw [hc, ht]

example : (⟨((run exCfgY ex0 [callA]).getD ex0), 11 / 10, none⟩ : Obj ℕ Unit ℕ ℚ Unit).deepcopy.view =
    (⟨((run exCfgY ex0 [callA]).getD ex0), 11 / 10, none⟩ : Obj ℕ Unit ℕ ℚ Unit).view :=
  C20_faithful_partial _ rfl rfl

/-- **C20**: the copy has lost the clip factor and the trust region, so that it is faithful in no other case. -/
theorem C20_faithful_iff (o : Obj P PX Θ K B) : o.deepcopy.view = o.view ↔ o.clip = 11 / 10 ∧ o.trust = none := by
  refine ⟨fun h => ⟨(congrArg View.clip h).symm, (congrArg View.trust h).symm⟩, fun h => C20_faithful_partial o h.1 h.2⟩

example : (⟨ex0, 11 / 10, some 7⟩ : Obj ℕ Unit ℕ ℚ ℕ).deepcopy.view ≠ (⟨ex0, 11 / 10, some 7⟩ : Obj ℕ Unit ℕ ℚ ℕ).view := by
  rw [ne_eq, C20_faithful_iff]
  simp

/-- **C20** is false of two objects with an adaptive target preprocessor: an append to the copy changes the preprocessor
of the original, which keeps its factors: all its predictions (`s v + m`, `v` from the factors) change. -/
theorem C20_sharing_counterexample :
    ∃ (o : Obj ℕ Unit ℕ ℚ Unit) (c : Call ℕ ℚ), (run exCfgY ex0 [callA]).map (fun st => (⟨st, 11 / 10, none⟩ : Obj ℕ Unit ℕ ℚ Unit)) = some o ∧
      (o.deepcopy.append exCfgY none c).2 = none ∧
      o.view.py = .aff 2 1 ∧ (((⟨o, o.deepcopy⟩ : Pair ℕ Unit ℕ ℚ Unit).append exCfgY none true c).orig).view.py = .aff 5 1 ∧
      (((⟨o, o.deepcopy⟩ : Pair ℕ Unit ℕ ℚ Unit).append exCfgY none true c).orig).view.factors = o.view.factors ∧
      ∀ v : ℚ, 1 * v + 2 ≠ 1 * v + 5 := by
  refine ⟨⟨((run exCfgY ex0 [callA]).getD ex0), 11 / 10, none⟩, { batch := some ([7], [.fin 5]) }, ?_, ?_, ?_, ?_, rfl, ?_⟩
  · obtain ⟨st, hst⟩ : ∃ st, run exCfgY ex0 [callA] = some st := by
      have : (run exCfgY ex0 [callA]).isSome = true := by decide +kernel
      exact Option.isSome_iff_exists.1 this
    rw [hst]; rfl
  · decide +kernel
  · decide +kernel
  · decide +kernel
  · intro v; norm_num

/-- C20: histories that meet the hypotheses. -/
example : ∀ q ∈ [(true, callQuick), (false, callQuick)], Quiet exCfgY q.2 := by
  intro q hq
  simp only [List.mem_cons, List.not_mem_nil, or_false] at hq
  rcases hq with rfl | rfl <;> exact Or.inl ⟨rfl, rfl⟩

example : ((⟨⟨((run exCfgY ex0 [callA]).getD ex0), 11 / 10, none⟩, (⟨((run exCfgY ex0 [callA]).getD ex0), 11 / 10, none⟩ :
    Obj ℕ Unit ℕ ℚ Unit).deepcopy⟩ : Pair ℕ Unit ℕ ℚ Unit).run exCfgY none [(true, callQuick)]).copy.st.xTrain = [1, 3, 5] ∧
    ((⟨⟨((run exCfgY ex0 [callA]).getD ex0), 11 / 10, none⟩, (⟨((run exCfgY ex0 [callA]).getD ex0), 11 / 10, none⟩ :
    Obj ℕ Unit ℕ ℚ Unit).deepcopy⟩ : Pair ℕ Unit ℕ ℚ Unit).run exCfgY none [(true, callQuick)]).orig.st.xTrain = [1, 3] := by
  decide +kernel

end GPry.Copy

namespace GPry.Predict

open Gp Matrix

variable {d n : ℕ}

/-- **C20**: the standard deviations predicted by the copy are those of the original, in every configuration. -/
theorem C20_std (st : St d n) (X : List (Fin d → ℝ)) (ign : Bool) :
    st.deepcopy.predictStd X = st.predictStd X ∧
    ∀ ms ss ms' ss', st.predict X ign = .ok (ms, ss) → st.deepcopy.predict X ign = .ok (ms', ss') → ss' = ss := by
  refine ⟨rfl, ?_⟩
  intro ms ss ms' ss' h h'
  have h1 := C15_predict_std st X ign ms ss h
  have h2 := C15_predict_std st.deepcopy X ign ms' ss' h'
  have : st.deepcopy.predictStd X = st.predictStd X := rfl
  rw [this, h1] at h2
  cases h2; rfl

/-- **C20** is false with a trust region: at every point outside of it that the classifier accepts, the original predicts
minus infinity and the copy a finite number. -/
theorem C20_trust_counterexample (st : St d n) (hfit : st.fitted = true) (hminf : st.minf = .negInf) (hs : 0 ≤ st.M.s)
    (x : Fin d → ℝ) (hx : st.Outside false x) (hi : ¬ st.Infinite x) (ms ms' : List (Ext ℝ)) (ss ss' : List ℝ)
    (h : st.predict [x] false = .ok (ms, ss)) (h' : st.deepcopy.predict [x] false = .ok (ms', ss')) :
    ms = [.negInf] ∧ ∃ v, ms' = [.fin v] := by
  obtain ⟨hl, _, H⟩ := C14_predict st hfit hminf hs [x] false ms ss h
  obtain ⟨hl', hl2, H'⟩ := C14_predict st.deepcopy hfit hminf hs [x] false ms' ss' h'
  match ms, hl with
  | [m], _ =>
    match ms', hl' with
    | [m'], _ =>
      have hss : ss.length = 1 := by simpa using (C14_predict st hfit hminf hs [x] false [m] ss h).2.1
      have h1 := (H 0 (by simp) (by simp) (by omega)).1
      have h2 := H' 0 (by simp) (by simp) (by simpa using hl2.symm ▸ Nat.one_pos)
      have e1 : m = .negInf := h1.2 (Or.inr hx)
      have e2 : m' ≠ .negInf := by
        intro he
        rcases h2.1.1 he with hh | hh
        · exact hi hh
        · obtain ⟨_, b, hb, _⟩ := hh
          cases hb
      obtain ⟨v, hv, _⟩ := h2.2.1 e2
      exact ⟨by rw [e1], v, by rw [show m' = _ from hv]⟩

/-- Linear kernel, training points 0 and 1 with values 0 and 1 and noise level 1, clip factor 3. -/
noncomputable def exTwo : St 1 2 :=
  { fitted := true, prior := fun _ => 1, M := ⟨fun x y => x 0 * y 0, id, 0, 1⟩, chol := exChol,
    R := ⟨fun i _ => if i = 0 then 0 else 1, fun i => if i = 0 then 0 else 1, fun _ => 1⟩, svm := none,
    trust := some fun _ => (-10, 10), clip := some 3, minf := .negInf }

theorem exTwo_mean (z : Fin 1 → ℝ) : exTwo.M.mean exTwo.chol exTwo.R z = z 0 / 2 := by
  have hK : ((exTwo.M.data exTwo.R).kmat exTwo.M.k) = Matrix.diagonal fun i : Fin 2 => if i = 0 then 1 else 2 := by
    ext i j
    fin_cases i <;> fin_cases j <;> simp [Data.kmat, exTwo, Model.data, Matrix.add_apply, Matrix.diagonal] <;> norm_num
  have hp : ((exTwo.M.data exTwo.R).kmat exTwo.M.k).PosDef := by
    rw [hK]
    apply Matrix.PosDef.diagonal
    intro i; fin_cases i <;> simp
  have hf : IsFactor ((exTwo.M.data exTwo.R).kmat exTwo.M.k) (exTwo.chol ((exTwo.M.data exTwo.R).kmat exTwo.M.k)) :=
    exChol_isFactor hp
  have ha := kmat_alpha hf
  obtain ⟨α, hα⟩ : ∃ α, α = ((exTwo.M.data exTwo.R).update exTwo.chol exTwo.M.k).alpha := ⟨_, rfl⟩
  rw [← hα, hK] at ha
  have h1 := congrFun ha 1
  simp [Matrix.mulVec_diagonal, exTwo, Model.data] at h1
  unfold Model.mean Data.mean
  rw [← hα]
  simp [dotProduct, Fin.sum_univ_two, Data.kTrans, exTwo, Model.data]
  linear_combination (z 0 / 2) * h1

/-- **C20** is false with another clip factor: the copy uses the default. -/
theorem C20_clip_counterexample :
    (∃ ss, exTwo.predict [fun _ => 4] false = .ok ([.fin 2], ss)) ∧
    ∃ ss, exTwo.deepcopy.predict [fun _ => 4] false = .ok ([.fin (11 / 10)], ss) := by
  have hm : ∀ st : St 1 2, st.M = exTwo.M → st.chol = exTwo.chol → st.R = exTwo.R → ∀ c, st.clip = some c → 1 ≤ c →
      st.means [fun _ => 4] = .ok [min 2 c] := by
    intro st h1 h2 h3 c hc h1c
    unfold St.means
    rw [hc, h1, h2, h3]
    have : ceiling c (List.ofFn exTwo.R.y) = .ok c := by
      simp [ceiling, exTwo, Tools.maxOf, Tools.minOf]
    dsimp only
    rw [this]
    simp only [List.map_cons, List.map_nil, exTwo_mean]
    norm_num
  have hin : outside (fun _ : Fin 1 => ((-10 : ℝ), (10 : ℝ))) (fun _ => 4) = false := by
    simp [outside, Tools.isInBounds, Ext.ge, Ext.le]
    norm_num
  constructor
  · refine ⟨[exTwo.M.std exTwo.chol exTwo.R fun _ => 4], ?_⟩
    have := hm exTwo rfl rfl rfl 3 rfl (by norm_num)
    unfold St.predict
    have h1 : exTwo.fitted = true := rfl
    have h2 : exTwo.svm = none := rfl
    simp only [h1, h2, this]
    simp only [St.trustMask, exTwo, Bool.not_true, Bool.false_eq_true, if_false, List.map_cons, List.map_nil, hin, maskSet]
    norm_num
  · refine ⟨[exTwo.M.std exTwo.chol exTwo.R fun _ => 4], ?_⟩
    have := hm exTwo.deepcopy rfl rfl rfl (11 / 10) rfl (by norm_num)
    unfold St.predict
    have h1 : exTwo.deepcopy.fitted = true := rfl
    have h2 : exTwo.deepcopy.svm = none := rfl
    simp only [h1, h2, this]
    simp only [St.trustMask, exTwo, St.deepcopy, Bool.not_true, Bool.false_eq_true, if_false, List.map_cons, List.map_nil, hin, maskSet]
    norm_num

/-- C20: the trust region of the example excludes points, and none is excluded by a classifier. -/
example : exTwo.Outside false (fun _ => 11) ∧ ¬ exTwo.Infinite (fun _ => 11) ∧ 0 ≤ exTwo.M.s := by
  refine ⟨⟨rfl, _, rfl, 0, Or.inr (by norm_num)⟩, ?_, by simp [exTwo]⟩
  rintro ⟨c, hc, _⟩
  cases hc

example : exTwo.deepcopy.predictStd [fun _ => 3, fun _ => 20] = exTwo.predictStd [fun _ => 3, fun _ => 20] := (C20_std exTwo _ false).1

/-- C14: the mean `z / 2` inside the trust region, minus infinity outside, the ceiling `3` above. -/
example : ∃ ms ss, exTwo.predict [fun _ => 4, fun _ => 11, fun _ => 8] false = .ok (ms, ss) ∧ ms[0]? = some (.fin 2) ∧ ms[1]? = some .negInf ∧
    ms[2]? = some (.fin 3) := by
  obtain ⟨ms, ss, h⟩ := C14_returns exTwo (by intro c hc; cases hc) [fun _ => 4, fun _ => 11, fun _ => 8] false
  obtain ⟨hm, hs, hi⟩ := C14_predict exTwo rfl rfl (by simp [exTwo]) _ false ms ss h
  have hI : ∀ x, ¬ exTwo.Infinite x := by rintro x ⟨c, hc, -⟩; cases hc
  have ht : ∀ t, IsCeiling exTwo.R 3 t → t = 3 := by
    rintro t ⟨i, j, h1, h2, rfl⟩
    have e1 : exTwo.R.y i = 1 := le_antisymm (by fin_cases i <;> simp [exTwo]) (by simpa [exTwo] using h1 1)
    have e2 : exTwo.R.y j = 0 := le_antisymm (by simpa [exTwo] using h2 0) (by fin_cases j <;> simp [exTwo])
    rw [e1, e2]; norm_num
  have hO : ∀ v : ℝ, -10 ≤ v → v ≤ 10 → ¬ exTwo.Outside false (fun _ => v) := by
    rintro v h1 h2 ⟨-, b, hb, j, hj⟩
    simp only [exTwo, Option.some.injEq] at hb
    subst hb
    rcases hj with hj | hj <;> simp at hj <;> linarith
  simp only [List.length_cons, List.length_nil] at hm hs
  have key : ∀ (i : ℕ) (h : i < 3) (v : ℝ), [fun _ : Fin 1 => (4 : ℝ), fun _ => 11, fun _ => 8][i] = (fun _ => v) → -10 ≤ v → v ≤ 10 →
      ms[i]? = some (.fin (min (v / 2) 3)) := by
    intro i hi3 v hv h1 h2
    obtain ⟨a, b, -⟩ := hi i hi3 (by omega) (by omega)
    rw [hv] at a b
    obtain ⟨w, hw, -, hc⟩ := b (fun hn => (a.mp hn).elim (hI _) (hO v h1 h2))
    obtain ⟨t, hct, hwt⟩ := hc 3 rfl
    rw [List.getElem?_eq_getElem (by omega), hw, hwt, ht t hct, exTwo_mean]
  refine ⟨ms, ss, h, ?_, ?_, ?_⟩
  · rw [key 0 (by omega) 4 rfl (by norm_num) (by norm_num)]; norm_num
  · rw [List.getElem?_eq_getElem (by omega)]
    exact congrArg some (((hi 1 (by simp) (by omega) (by omega)).1).mpr (.inr ⟨rfl, _, rfl, 0, .inr (by norm_num)⟩))
  · rw [key 2 (by omega) 8 rfl (by norm_num) (by norm_num)]; norm_num

example {t : ℝ} (h : IsCeiling exTwo.R 3 t) : exTwo.R.y 1 ≤ t := C14_ceiling h (by norm_num) 1

/-- C14: the same point alone. -/
example (ms : List (Ext ℝ)) (ss : List ℝ) (h : exTwo.predict [fun _ => 4, fun _ => 11] false = .ok (ms, ss)) :
    ∃ m s, exTwo.predict [fun _ => 11] false = .ok ([m], [s]) := by
  obtain ⟨_, _, h'⟩ := C14_batch exTwo rfl (by intro c hc; cases hc) _ false ms ss h 1 (by simp)
  exact ⟨_, _, h'⟩

/-- C15: a classifier that is not trained. -/
example : ({ exTwo with svm := some ⟨false, true, true, fun _ => true⟩ } : St 1 2).predict [fun _ => 4] false = .error .valueError :=
  (C15_untrained _ rfl _ rfl rfl _ false).1

end GPry.Predict
