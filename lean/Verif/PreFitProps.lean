import Verif.PreFit
import Verif.GprEx

set_option linter.all false

/-!
# C163: preprocessors are fitted together with the hyperparameters, and a call returns the regressor
-/

namespace GPry.Gpr

variable {P PX Θ K : Type*} [Field K] [LinearOrder K]

/-- `_update_model` changes neither preprocessors nor hyperparameters nor the training set. -/
theorem updateModel_pre (cfg : Cfg P PX Θ K) (st : State P PX Θ K) : (updateModel cfg st).1.px = st.px ∧ (updateModel cfg st).1.py = st.py ∧
    (updateModel cfg st).1.theta = st.theta ∧ (updateModel cfg st).1.xTrain = st.xTrain ∧ (updateModel cfg st).1.yTrain = st.yTrain ∧
    (updateModel cfg st).1.nLastFinite = st.nLastFinite := by
  unfold updateModel
  split
  · simp
  · split
    · simp
    · rename_i h
      split
      · simp [h]
      · split <;> simp [h]

theorem fitHyper_pre (cfg : Cfg P PX Θ K) (n : Option ℕ) (st : State P PX Θ K) : (fitHyper cfg n st).1.px = st.px ∧ (fitHyper cfg n st).1.py = st.py ∧
    (fitHyper cfg n st).1.xTrain = st.xTrain ∧ (fitHyper cfg n st).1.yTrain = st.yTrain ∧ (fitHyper cfg n st).1.nLastFinite = st.nLastFinite := by
  unfold fitHyper
  dsimp only
  split_ifs
  · split
    · simp
    · have := updateModel_pre cfg st; tauto
  · simp
  · have := updateModel_pre cfg { st with theta := some (cfg.optimise st.xTrain' st.yTrain' st.noiseVar st.theta (n.getD cfg.nRestarts)) }
    split
    · rename_i st' e h
      rw [h] at this; tauto
    · rename_i st' h
      rw [h] at this; tauto

theorem appendFit_pre (cfg : Cfg P PX Θ K) (st : State P PX Θ K) (c : Call P K) (mask : List Bool) (nz : List (Ext K)) :
    (appendFit cfg st c mask nz).1.px = st.px ∧ (appendFit cfg st c mask nz).1.py = st.py ∧
    (c.fit = .no → (appendFit cfg st c mask nz).1.theta = st.theta) ∧
    (appendFit cfg st c mask nz).1.xTrain = maskL mask st.xAll ∧ (appendFit cfg st c mask nz).1.yTrain = maskL mask st.yAll ∧
    (appendFit cfg st c mask nz).1.nLastFinite = st.nLastFinite := by
  unfold appendFit
  dsimp only
  split
  · simp
  · split
    · simp
    · split
      · rename_i hn
        exact ⟨(fitHyper_pre cfg _ _).1, (fitHyper_pre cfg _ _).2.1, fun h => (by rw [h] at hn; cases hn), (fitHyper_pre cfg _ _).2.2.1,
          (fitHyper_pre cfg _ _).2.2.2.1, (fitHyper_pre cfg _ _).2.2.2.2⟩
      · exact ⟨(updateModel_pre cfg _).1, (updateModel_pre cfg _).2.1, fun _ => (updateModel_pre cfg _).2.2.1, (updateModel_pre cfg _).2.2.2.1,
          (updateModel_pre cfg _).2.2.2.2.1, (updateModel_pre cfg _).2.2.2.2.2⟩

theorem appendMid_pre (cfg : Cfg P PX Θ K) (st : State P PX Θ K) (c : Call P K) (fitClf : Bool) (thr : Ext K) (mask : List Bool) :
    (fitClf = false → (appendMid cfg st c fitClf thr mask).1.px = st.px ∧ (appendMid cfg st c fitClf thr mask).1.py = st.py) ∧
    (c.fit = .no → (appendMid cfg st c fitClf thr mask).1.theta = st.theta) ∧
    ((appendMid cfg st c fitClf thr mask).2 = none → fitClf = true →
      (appendMid cfg st c fitClf thr mask).1.px = cfg.fitX st.px (maskL mask st.xAll) (maskL mask st.yAll) ∧
      cfg.fitY st.py (maskL mask st.xAll) (maskL mask st.yAll) = .ok (appendMid cfg st c fitClf thr mask).1.py) ∧
    ((appendMid cfg st c fitClf thr mask).2 = none →
      ¬ ((appendMid cfg st c fitClf thr mask).1.nLastFinite = 0 ∧ (c.batch.isNone && c.fit != .no) = false) →
      (appendMid cfg st c fitClf thr mask).1.xTrain = maskL mask st.xAll ∧ (appendMid cfg st c fitClf thr mask).1.yTrain = maskL mask st.yAll) ∧
    ((appendMid cfg st c fitClf thr mask).2 = none →
      ((appendMid cfg st c fitClf thr mask).1.nLastFinite = 0 ∧ (c.batch.isNone && c.fit != .no) = false) →
      (appendMid cfg st c fitClf thr mask).1.xTrain = st.xTrain ∧ (appendMid cfg st c fitClf thr mask).1.yTrain = st.yTrain) := by
  unfold appendMid
  dsimp only
  by_cases hlen : mask.length ≠ st.xAll.length
  · rw [if_pos hlen]; simp
  rw [if_neg hlen]
  have tail : ∀ (s : State P PX Θ K) (nz : List (Ext K)) (k : ℕ), s.xAll = st.xAll → s.yAll = st.yAll → s.xTrain = st.xTrain →
      s.yTrain = st.yTrain → s.theta = st.theta →
      let r := (if k = 0 ∧ (c.batch.isNone && c.fit != .no) = false then ({ s with nLastFinite := k }, none)
        else appendFit cfg { s with nLastFinite := k } c mask nz : State P PX Θ K × Option Err)
      r.1.px = s.px ∧ r.1.py = s.py ∧ (c.fit = .no → r.1.theta = st.theta) ∧ r.1.nLastFinite = k ∧
      (¬ (k = 0 ∧ (c.batch.isNone && c.fit != .no) = false) → r.1.xTrain = maskL mask st.xAll ∧ r.1.yTrain = maskL mask st.yAll) ∧
      ((k = 0 ∧ (c.batch.isNone && c.fit != .no) = false) → r.1.xTrain = st.xTrain ∧ r.1.yTrain = st.yTrain) := by
    intro s nz k h1 h2 h3 h4 h5
    dsimp only
    split
    · rename_i h
      exact ⟨rfl, rfl, fun _ => h5, rfl, fun h' => absurd h h', fun _ => ⟨h3, h4⟩⟩
    · rename_i h
      obtain ⟨a, b, c', d, e, f⟩ := appendFit_pre cfg { s with nLastFinite := k } c mask nz
      exact ⟨a, b, fun hf => (c' hf).trans h5, f, fun _ => ⟨d.trans (by rw [h1]), e.trans (by rw [h2])⟩, fun h' => absurd h' h⟩
  cases fitClf
  · simp only [Bool.false_eq_true, if_false, false_implies, implies_true, true_and, forall_const]
    split
    · simp
    · split
      · simp
      · split
        · rename_i heq
          split at heq <;> cases heq
        · rename_i s' lm heq
          have hs : s' = { st with py := st.py } := by
            split at heq <;> cases heq <;> rfl
          obtain ⟨a, b, c', d, e, f⟩ := tail s' _ (lm.count true) (by rw [hs]) (by rw [hs]) (by rw [hs]) (by rw [hs]) (by rw [hs])
          refine ⟨⟨a.trans (by rw [hs]), b.trans (by rw [hs])⟩, c', fun _ h => e ?_, fun _ h => f ?_⟩
          · rwa [d] at h
          · rwa [d] at h
  · simp only [if_true, Bool.true_eq_false, false_implies, true_and, forall_const]
    split
    · simp
    · rename_i py hpy
      split
      · simp
      · split
        · simp
        · split
          · rename_i s' e heq
            have hs : s'.theta = st.theta := by
              split at heq
              · split at heq
                · cases heq; rfl
                · split at heq
                  · cases heq; rfl
                  · split at heq <;> cases heq
                    rfl
              · cases heq
            exact ⟨fun _ => hs, by simp⟩
          · rename_i s' lm heq
            have hs : s'.xAll = st.xAll ∧ s'.yAll = st.yAll ∧ s'.xTrain = st.xTrain ∧ s'.yTrain = st.yTrain ∧ s'.theta = st.theta ∧
                s'.px = cfg.fitX st.px (maskL mask st.xAll) (maskL mask st.yAll) ∧ s'.py = py := by
              split at heq
              · split at heq
                · cases heq
                · split at heq
                  · cases heq
                  · split at heq <;> cases heq
                    simp
              · cases heq
                simp
            obtain ⟨h1, h2, h3, h4, h5, h6, h7⟩ := hs
            obtain ⟨a, b, c', d, e, f⟩ := tail s' _ (lm.count true) h1 h2 h3 h4 h5
            refine ⟨c', fun _ => ⟨a.trans h6, ?_⟩, fun _ h => e ?_, fun _ h => f ?_⟩
            · rw [hpy, b, h7]
            · rwa [d] at h
            · rwa [d] at h

/-- What a call of `append_to_data` does to the preprocessors, the hyperparameters and the training set. -/
theorem append_pre (cfg : Cfg P PX Θ K) (st : State P PX Θ K) (c : Call P K) :
    (c.fit = .no → c.fitClf = false → (append cfg st c).1.px = st.px ∧ (append cfg st c).1.py = st.py) ∧
    (c.fit = .no → (append cfg st c).1.theta = st.theta) ∧
    ((append cfg st c).2 = none → c.fit ≠ .no ∨ c.fitClf = true → ∃ xs ys,
      (append cfg st c).1.px = cfg.fitX st.px xs ys ∧ cfg.fitY st.py xs ys = .ok (append cfg st c).1.py ∧
      (¬ ((append cfg st c).1.nLastFinite = 0 ∧ (c.batch.isNone && c.fit != .no) = false) →
        xs = (append cfg st c).1.xTrain ∧ ys = (append cfg st c).1.yTrain)) ∧
    ((append cfg st c).2 = none → ((append cfg st c).1.nLastFinite = 0 ∧ (c.batch.isNone && c.fit != .no) = false) →
      (append cfg st c).1.xTrain = st.xTrain ∧ (append cfg st c).1.yTrain = st.yTrain) := by
  have key : ∀ (s : State P PX Θ K) thr mask, s.px = st.px → s.py = st.py → s.theta = st.theta → s.xTrain = st.xTrain → s.yTrain = st.yTrain →
      let r := appendMid cfg s c (c.fitClf || c.fit != .no) thr mask
      (c.fit = .no → c.fitClf = false → r.1.px = st.px ∧ r.1.py = st.py) ∧
      (c.fit = .no → r.1.theta = st.theta) ∧
      (r.2 = none → c.fit ≠ .no ∨ c.fitClf = true → ∃ xs ys, r.1.px = cfg.fitX st.px xs ys ∧ cfg.fitY st.py xs ys = .ok r.1.py ∧
        (¬ (r.1.nLastFinite = 0 ∧ (c.batch.isNone && c.fit != .no) = false) → xs = r.1.xTrain ∧ ys = r.1.yTrain)) ∧
      (r.2 = none → (r.1.nLastFinite = 0 ∧ (c.batch.isNone && c.fit != .no) = false) → r.1.xTrain = st.xTrain ∧ r.1.yTrain = st.yTrain) := by
    intro s thr mask h1 h2 h3 h4 h5
    dsimp only
    obtain ⟨a, b, c', d, e⟩ := appendMid_pre cfg s c (c.fitClf || c.fit != .no) thr mask
    refine ⟨fun hf hc => ?_, fun hf => (b hf).trans h3, fun h0 hor => ?_, fun h0 h => ?_⟩
    · rw [← h1, ← h2]; exact a (by rw [hf, hc]; rfl)
    · obtain ⟨u, v⟩ := c' h0 (by rcases hor with h | h <;> simp [h])
      rw [h1] at u; rw [h2] at v
      exact ⟨_, _, u, v, fun hn => ⟨(d h0 hn).1.symm, (d h0 hn).2.symm⟩⟩
    · rw [← h4, ← h5]; exact e h0 h
  unfold append
  dsimp only
  split
  · rename_i h
    simp [h]
  · split
    · simp
    · split
      · simp
      · split
        · simp
        · split
          · split
            · simp
            · split
              · simp
              · exact key _ _ _ rfl rfl rfl rfl rfl
          · exact key _ _ _ rfl rfl rfl rfl rfl

/-- **C163** (partial: `fit_classifier=False`). A call without a fit of anything leaves preprocessors and hyperparameters as they were, also if it raises. -/
theorem C163_kept_partial (cfg : Cfg P PX Θ K) (st : State P PX Θ K) (c : Call P K) (hf : c.fit = .no) (hc : c.fitClf = false) :
    (append cfg st c).1.px = st.px ∧ (append cfg st c).1.py = st.py ∧ (append cfg st c).1.theta = st.theta :=
  ⟨((append_pre cfg st c).1 hf hc).1, ((append_pre cfg st c).1 hf hc).2, (append_pre cfg st c).2.1 hf⟩

/-- **C163**. A call that fits the hyperparameters fits the preprocessors too, to the training set that the fit of the hyperparameters uses. -/
theorem C163_refit (cfg : Cfg P PX Θ K) (st : State P PX Θ K) (c : Call P K) (hf : c.fit ≠ .no) (h : (append cfg st c).2 = none)
    (hn : c.batch = none ∨ (append cfg st c).1.nLastFinite ≠ 0) :
    (append cfg st c).1.px = cfg.fitX st.px (append cfg st c).1.xTrain (append cfg st c).1.yTrain ∧
      cfg.fitY st.py (append cfg st c).1.xTrain (append cfg st c).1.yTrain = .ok (append cfg st c).1.py := by
  obtain ⟨xs, ys, h1, h2, h3⟩ := (append_pre cfg st c).2.2.1 h (Or.inl hf)
  obtain ⟨e1, e2⟩ := h3 (by
    rcases hn with hn | hn
    · rw [hn]; simp [hf]
    · exact fun q => hn q.1)
  subst e1 e2
  exact ⟨h1, h2⟩

/-- **C163** is false of calls without a fit of the hyperparameters: by default (`fit_classifier=True`) the preprocessors are fitted to the new training
set, and the hyperparameters, which are in units of the preprocessors, stay. -/
theorem C163_counterexample (cfg : Cfg P PX Θ K) (st : State P PX Θ K) (c : Call P K) (hf : c.fit = .no) (hc : c.fitClf = true)
    (h : (append cfg st c).2 = none) (hn : (append cfg st c).1.nLastFinite ≠ 0) :
    (append cfg st c).1.theta = st.theta ∧
    (append cfg st c).1.px = cfg.fitX st.px (append cfg st c).1.xTrain (append cfg st c).1.yTrain ∧
      cfg.fitY st.py (append cfg st c).1.xTrain (append cfg st c).1.yTrain = .ok (append cfg st c).1.py := by
  obtain ⟨xs, ys, h1, h2, h3⟩ := (append_pre cfg st c).2.2.1 h (Or.inr hc)
  obtain ⟨e1, e2⟩ := h3 fun q => hn q.1
  subst e1 e2
  exact ⟨(append_pre cfg st c).2.1 hf, h1, h2⟩

/-- **C163** (return value, partial): if the regressor is returned, the training set of the GP is the same as before the call. -/
theorem C163_return_partial (cfg : Cfg P PX Θ K) (st st' : State P PX Θ K) (c : Call P K) (h : appendRet cfg st c = (st', .ok .self)) :
    append cfg st c = (st', none) ∧ st'.xTrain = st.xTrain ∧ st'.yTrain = st.yTrain := by
  have e := (append_pre cfg st c).2.2.2
  unfold appendRet at h
  rcases ha : append cfg st c with ⟨s, _ | x⟩
  · rw [ha] at h e
    simp only [Prod.mk.injEq, Except.ok.injEq] at h
    obtain ⟨rfl, h⟩ := h
    split at h
    · rename_i hq
      exact ⟨rfl, e rfl hq⟩
    · cases h
  · rw [ha] at h
    simp at h

/-- **C163** (return value) is false of every call that changes the GP: with a new finite point, or with a refit asked for without points, `None` is
returned. -/
theorem C163_return_counterexample (cfg : Cfg P PX Θ K) (st : State P PX Θ K) (c : Call P K) (h : (append cfg st c).2 = none)
    (hn : (append cfg st c).1.nLastFinite ≠ 0 ∨ c.batch = none ∧ c.fit ≠ .no) : (appendRet cfg st c).2 = .ok .none := by
  unfold appendRet
  rcases ha : append cfg st c with ⟨s, _ | x⟩
  · rw [ha] at hn
    dsimp only at hn ⊢
    rw [if_neg]
    rintro ⟨h1, h2⟩
    rcases hn with hn | ⟨h3, h4⟩
    · exact hn h1
    · rw [h3] at h2; simp [h4] at h2
  · rw [ha] at h; cases h

/-- A preprocessor of targets that divides by the range of the targets. -/
def exCfgR : Cfg ℕ Unit ℕ ℚ :=
  { exCfg true with fitY := fun _ _ ys => match ys.head?, ys.getLast? with
      | some (.fin a), some (.fin b) => .ok (.aff 0 (b - a))
      | _, _ => .ok .nanAff }

/-- `C163_counterexample`: hyperparameters as fitted (2 points), unit of the targets 5 instead of 1, so that the standard deviation predicted far from
all points is five times larger. -/
example : ((run exCfgR ex0 [callA]).map fun s => (s.theta, s.py, s.nLastFinite)) = some (some 2, .aff 0 1, 2) ∧
    ((run exCfgR ex0 [callA, { batch := some ([7], [.fin 6]), fit := .no }]).map fun s => (s.theta, s.py, s.nLastFinite)) = some (some 2, .aff 0 5, 1) ∧
    ((run exCfgR ex0 [callA, callQuick]).map fun s => (s.theta, s.py, s.nLastFinite)) = some (some 2, .aff 0 1, 1) := by decide +kernel

/-- `C163_refit`, `C163_return_partial`, `C163_return_counterexample` -/
example : (append exCfgR ex0 callA).2 = none ∧ (append exCfgR ex0 callA).1.nLastFinite = 2 ∧ (appendRet exCfgR ex0 callA).2 = .ok .none ∧
    ((run exCfgR ex0 [callA]).map fun s => ((appendRet exCfgR s callLow).2, (appendRet exCfgR s callRefit).2)) = some (.ok .self, .ok .none) := by
  decide +kernel

end GPry.Gpr
