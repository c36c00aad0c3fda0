import Verif.GprClassify

/-!
# Inversion lemmas for `append_to_data` (helpers of `GprProps`)
-/

set_option linter.all false

namespace GPry.Gpr

variable {K : Type*} [Field K] [LinearOrder K] {P PX Θ : Type*}

/-- The data attributes that fitting does not touch. -/
structure SameData (a b : State P PX Θ K) : Prop where
  xAll : a.xAll = b.xAll
  yAll : a.yAll = b.yAll
  xTrain : a.xTrain = b.xTrain
  yTrain : a.yTrain = b.yTrain
  px : a.px = b.px
  py : a.py = b.py
  xTrain' : a.xTrain' = b.xTrain'
  yTrain' : a.yTrain' = b.yTrain'
  noise : a.noise = b.noise
  noiseVar : a.noiseVar = b.noiseVar
  svm : a.svm = b.svm
  nLast : a.nLast = b.nLast
  nLastFinite : a.nLastFinite = b.nLastFinite

theorem SameData.rfl' (a : State P PX Θ K) : SameData a a :=
  ⟨rfl, rfl, rfl, rfl, rfl, rfl, rfl, rfl, rfl, rfl, rfl, rfl, rfl⟩

theorem SameData.trans {a b c : State P PX Θ K} (h : SameData a b) (h' : SameData b c) :
    SameData a c :=
  ⟨h.1.trans h'.1, h.2.trans h'.2, h.3.trans h'.3, h.4.trans h'.4, h.5.trans h'.5, h.6.trans h'.6,
   h.7.trans h'.7, h.8.trans h'.8, h.9.trans h'.9, h.10.trans h'.10, h.11.trans h'.11,
   h.12.trans h'.12, h.13.trans h'.13⟩

theorem updateModel_same (cfg : Cfg P PX Θ K) (st : State P PX Θ K) :
    SameData (updateModel cfg st).1 st ∧ (updateModel cfg st).1.theta = st.theta := by
  unfold updateModel
  split
  · exact ⟨.rfl' _, rfl⟩
  · split
    · exact ⟨.rfl' _, rfl⟩
    · split
      · exact ⟨.rfl' _, rfl⟩
      · split
        · exact ⟨.rfl' _, rfl⟩
        · exact ⟨⟨rfl, rfl, rfl, rfl, rfl, rfl, rfl, rfl, rfl, rfl, rfl, rfl, rfl⟩, by simp_all⟩

theorem fitHyper_same (cfg : Cfg P PX Θ K) (n : Option ℕ) (st : State P PX Θ K) :
    SameData (fitHyper cfg n st).1 st := by
  unfold fitHyper
  dsimp only
  split
  · split
    · exact .rfl' _
    · exact (updateModel_same cfg st).1
  · split
    · exact .rfl' _
    · have h := (updateModel_same cfg
        { st with theta := some (cfg.optimise st.xTrain' st.yTrain' st.noiseVar st.theta
          (n.getD cfg.nRestarts)) }).1
      have h0 : SameData { st with theta := some (cfg.optimise st.xTrain' st.yTrain' st.noiseVar st.theta
          (n.getD cfg.nRestarts)) } st :=
        ⟨rfl, rfl, rfl, rfl, rfl, rfl, rfl, rfl, rfl, rfl, rfl, rfl, rfl⟩
      split
      · rename_i heq
        rw [heq] at h
        exact h.trans h0
      · rename_i heq
        rw [heq] at h
        have h' := h.trans h0
        exact ⟨h'.1, h'.2, h'.3, h'.4, h'.5, h'.6, h'.7, h'.8, h'.9, h'.10, h'.11, h'.12, h'.13⟩

/-- A successful `_update_model` leaves factors computed from the current data (if anything is new). -/
theorem updateModel_ok {cfg : Cfg P PX Θ K} {st st' : State P PX Θ K}
    (h : updateModel cfg st = (st', none)) (hn : 0 < st.newly) :
    ∃ th, st'.theta = some th ∧ st.theta = some th ∧ st'.newly = 0 ∧ 
      st'.factors = some ⟨st'.xTrain', st'.yTrain', st'.noiseVar, th⟩ := by
  unfold updateModel at h
  rw [if_neg (by omega)] at h
  split at h
  · simp at h
  · rename_i th hth
    split at h
    · simp at h
    · split at h
      · simp at h
      · obtain rfl := (Prod.mk.inj h).1
        exact ⟨th, hth, hth, rfl, rfl⟩

theorem fitHyper_ok {cfg : Cfg P PX Θ K} {n : Option ℕ} {st st' : State P PX Θ K}
    (h : fitHyper cfg n st = (st', none)) (hn : 0 < st.newly) :
    ∃ th, st'.theta = some th ∧ st'.newly = 0 ∧
      st'.factors = some ⟨st'.xTrain', st'.yTrain', st'.noiseVar, th⟩ := by
  unfold fitHyper at h
  dsimp only at h
  split at h
  · split at h
    · simp at h
    · obtain ⟨th, a, -, b, c⟩ := updateModel_ok h hn
      exact ⟨th, a, b, c⟩
  · split at h
    · simp at h
    · split at h
      · simp at h
      · rename_i st1 heq
        obtain rfl := (Prod.mk.inj h).1
        obtain ⟨th, a, -, b, c⟩ := updateModel_ok heq (by exact hn)
        exact ⟨th, a, b, c⟩

/-- Inversion of gpr.py:743-752. -/
theorem appendFit_ok {cfg : Cfg P PX Θ K} {st st' : State P PX Θ K} {c : Call P K} {mask : List Bool}
    {noise' : List (Ext K)} (h : appendFit cfg st c mask noise' = (st', none)) :
    st'.xAll = st.xAll ∧ st'.yAll = st.yAll ∧ st'.px = st.px ∧ st'.py = st.py ∧
    st'.noise = st.noise ∧ st'.svm = st.svm ∧ st'.nLast = st.nLast ∧
    st'.nLastFinite = st.nLastFinite ∧
    st'.xTrain = maskL mask st.xAll ∧ st'.yTrain = maskL mask st.yAll ∧
    st'.xTrain' = st'.xTrain.map (cfg.trX st.px) ∧
    mapE st.py.transform st'.yTrain = .ok st'.yTrain' ∧
    mask.length = noise'.length ∧ st'.noiseVar = (maskL mask noise').map Ext.sq ∧
    (0 < st.nLastFinite → ∃ th, st'.theta = some th ∧ st'.newly = 0 ∧
      st'.factors = some ⟨st'.xTrain', st'.yTrain', st'.noiseVar, th⟩) := by
  unfold appendFit at h
  simp only at h
  split at h
  · simp at h
  · rename_i yT hyT
    split at h
    · simp at h
    · rename_i nv hnv
      unfold maskChecked at hnv
      split_ifs at hnv with hlen
      cases hnv
      split at h
      · rename_i n hfit
        have hs := fitHyper_same cfg n { st with
          xTrain := maskL mask st.xAll, yTrain := maskL mask st.yAll,
          xTrain' := (maskL mask st.xAll).map (cfg.trX st.px), yTrain' := yT,
          noiseVar := (maskL mask noise').map Ext.sq, newly := st.nLastFinite }
        rw [h] at hs
        refine ⟨hs.xAll, hs.yAll, hs.px, hs.py, hs.noise, hs.svm, hs.nLast, hs.nLastFinite, hs.xTrain,
          hs.yTrain, ?_, ?_, hlen, hs.noiseVar, ?_⟩
        · rw [hs.xTrain', hs.xTrain]
        · rw [hs.yTrain, hs.yTrain']; exact hyT
        · intro hn; exact fitHyper_ok h hn
      · have hs := (updateModel_same cfg { st with
          xTrain := maskL mask st.xAll,
          yTrain := maskL mask st.yAll,
          xTrain' := (maskL mask st.xAll).map (cfg.trX st.px), yTrain' := yT,
          noiseVar := (maskL mask noise').map Ext.sq, newly := st.nLastFinite }).1
        rw [h] at hs
        refine ⟨hs.xAll, hs.yAll, hs.px, hs.py, hs.noise, hs.svm, hs.nLast, hs.nLastFinite, hs.xTrain,
          hs.yTrain, ?_, ?_, hlen, hs.noiseVar, ?_⟩
        · rw [hs.xTrain', hs.xTrain]
        · rw [hs.yTrain, hs.yTrain']; exact hyT
        · intro hn
          obtain ⟨th, a, -, b, c⟩ := updateModel_ok h hn
          exact ⟨th, a, b, c⟩

/-- The noise array before transforming (gpr.py:711-714). -/
def noiseArr (noise : Noise K) (n : ℕ) : List (Ext K) :=
  match noise with
  | .scalar s => List.replicate n (.fin s)
  | .array ks => ks.map .fin

/-- Inversion of gpr.py:703-741. -/
theorem appendMid_ok {cfg : Cfg P PX Θ K} {st st' : State P PX Θ K} {c : Call P K} {fitClf : Bool}
    {thrKeep : Ext K} {mask : List Bool}
    (h : appendMid cfg st c fitClf thrKeep mask = (st', none)) :
    mask.length = st.xAll.length ∧
    ∃ py yAll' noise' svm lastMask,
      (if fitClf then cfg.fitY st.py (maskL mask st.xAll) (maskL mask st.yAll) else .ok st.py) = .ok py ∧
      mapE py.transform st.yAll = .ok yAll' ∧
      mapE py.transformScale (noiseArr st.noise yAll'.length) = .ok noise' ∧
      (if cfg.useSvm ∧ fitClf then ∃ thr', py.transformScale thrKeep = .ok thr' ∧
        st.svm.fit yAll' thr' = (svm, .ok mask) else svm = st.svm) ∧
      lastMask = (if cfg.useSvm then lastSlice st.nLast mask else List.replicate st.nLast true) ∧
      let st2 : State P PX Θ K := { st with
        px := if fitClf then cfg.fitX st.px (maskL mask st.xAll) (maskL mask st.yAll) else st.px,
        py := py, svm := svm, nLastFinite := lastMask.count true }
      ((st2.nLastFinite = 0 ∧ (c.batch.isNone && c.fit != .no) = false ∧ st' = st2) ∨
        (¬(st2.nLastFinite = 0 ∧ (c.batch.isNone && c.fit != .no) = false) ∧
          appendFit cfg st2 c mask noise' = (st', none))) := by
  unfold appendMid at h
  split at h
  · simp at h
  rename_i hlen
  refine ⟨not_not.1 hlen, ?_⟩
  dsimp only at h
  cases fitClf with
  | false =>
    simp only [Bool.false_eq_true, if_false] at h
    split at h
    · simp at h
    · rename_i yAll' hy
      split at h
      · simp at h
      · rename_i noise' hn
        refine ⟨st.py, yAll', noise', st.svm,
          (if cfg.useSvm then lastSlice st.nLast mask else List.replicate st.nLast true),
          by simp, hy, hn, by simp, rfl, ?_⟩
        cases hu : cfg.useSvm with
        | true =>
          simp only [hu, if_true] at h ⊢
          split_ifs at h with he
          · left; exact ⟨he.1, he.2, (Prod.mk.inj h).1.symm⟩
          · right; exact ⟨he, h⟩
        | false =>
          simp only [hu, if_false, Bool.false_eq_true] at h ⊢
          split_ifs at h with he
          · left; exact ⟨he.1, he.2, (Prod.mk.inj h).1.symm⟩
          · right; exact ⟨he, h⟩
  | true =>
    simp only [if_true] at h
    split at h
    · simp at h
    · rename_i py hpy
      split at h
      · simp at h
      · rename_i yAll' hy
        split at h
        · simp at h
        · rename_i noise' hn
          cases hu : cfg.useSvm with
          | true =>
            simp only [hu, if_true] at h
            split at h
            · simp at h
            · rename_i st3 lm heq
              split at heq
              · simp at heq
              · rename_i thr' hthr'
                split at heq
                · simp at heq
                · rename_i svm f hsvm
                  split at heq
                  swap
                  · simp at heq
                  rename_i hf
                  obtain ⟨rfl, hlm⟩ := Prod.mk.inj heq
                  cases hlm
                  subst hf
                  refine ⟨py, yAll', noise', svm, lastSlice st.nLast f, by simpa using hpy, hy, hn,
                    by simp only [and_self, if_true]; exact ⟨thr', hthr', hsvm⟩, by simp, ?_⟩
                  simp only [if_true]
                  split_ifs at h with he
                  · left; exact ⟨he.1, he.2, (Prod.mk.inj h).1.symm⟩
                  · right; exact ⟨he, h⟩
          | false =>
            simp only [hu, if_false, Bool.false_eq_true] at h
            refine ⟨py, yAll', noise', st.svm, List.replicate st.nLast true, by simpa using hpy, hy, hn,
              by simp, by simp, ?_⟩
            simp only [if_true]
            split_ifs at h with he
            · left; exact ⟨he.1, he.2, (Prod.mk.inj h).1.symm⟩
            · right; exact ⟨he, h⟩

/-- Inversion of gpr.py:648-704. -/
theorem append_ok {cfg : Cfg P PX Θ K} {st st' : State P PX Θ K} {c : Call P K}
    (h : append cfg st c = (st', none)) :
    c.fit ≠ .invalid ∧ ∃ nz noise thrKeep mask,
      validateNoise st.noise c.noise c.ys.length = .ok nz ∧
      updateNoise st.noise nz (st.yAll ++ c.ys).length = .ok noise ∧
      (if cfg.useSvm then diffThresholdKeepN cfg.eps (st.yAll ++ c.ys) cfg.keepMin cfg.thr = .ok thrKeep ∧
          isFiniteAll thrKeep (st.yAll ++ c.ys) = .ok mask
        else thrKeep = cfg.thr ∧ mask = (st.yAll ++ c.ys).map fun _ => true) ∧
      appendMid cfg { st with
        nLast := c.ys.length, xAll := st.xAll ++ c.xs, yAll := st.yAll ++ c.ys,
        noise := noise } c (c.fitClf || c.fit != .no) thrKeep mask = (st', none) := by
  unfold append at h
  split at h
  · simp at h
  · rename_i hinv
    refine ⟨hinv, ?_⟩
    simp only at h
    split at h
    · simp at h
    · split at h
      · simp at h
      · rename_i nz hnz
        split at h
        · simp at h
        · rename_i noise hnoise
          split at h
          · rename_i hu
            split at h
            · simp at h
            · rename_i thrKeep hthr
              split at h
              · simp at h
              · rename_i mask hmask
                exact ⟨nz, noise, thrKeep, mask, hnz, hnoise, by rw [if_pos hu]; exact ⟨hthr, hmask⟩, h⟩
          · rename_i hu
            exact ⟨nz, noise, cfg.thr, _, hnz, hnoise, by rw [if_neg hu]; exact ⟨rfl, rfl⟩, h⟩

end GPry.Gpr
