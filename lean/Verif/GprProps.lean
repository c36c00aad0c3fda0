import Verif.GprInv

/-!
# Properties C09, C10, C11, C12, C63: classification and data partition
-/

set_option linter.all false

namespace GPry.Gpr

variable {K : Type*} [Field K] [LinearOrder K] [IsStrictOrderedRing K] {P PX Θ : Type*}

/-! ## Specification -/

/-- Admissible configuration: threshold `≥ 0` or infinite, `eps ≥ 0`. -/
def CfgOk (cfg : Cfg P PX Θ K) : Prop := ThrOk cfg.thr ∧ 0 ≤ cfg.eps

/-- **Specification** of membership in the training set. -/
def KeptBy (cfg : Cfg P PX Θ K) (ys : List (Ext K)) (y : Ext K) : Prop :=
  cfg.useSvm = true → Kept cfg.thr cfg.keepMin cfg.eps ys y

open Classical in
/-- **Specification** of the training set: the sub-sequence of all points whose target is kept. -/
noncomputable def specTrain (cfg : Cfg P PX Θ K) (xs : List P) (ys : List (Ext K)) : List (P × Ext K) :=
  (xs.zip ys).filter fun p => decide (KeptBy cfg ys p.2)

open Classical in
/-- **Specification** of the complementary sub-sequence. -/
noncomputable def specInf (cfg : Cfg P PX Θ K) (xs : List P) (ys : List (Ext K)) : List (P × Ext K) :=
  (xs.zip ys).filter fun p => !decide (KeptBy cfg ys p.2)

/-! ## Helper lemmas -/

theorem maskL_eq_filter {α β γ : Type*} (Q : β → Prop) [DecidablePred Q] (g : α × β → γ) :
    ∀ (mask : List Bool) (xs : List α) (ys : List β), mask.length = xs.length → mask.length = ys.length →
      (∀ i (h : i < ys.length) (h' : i < mask.length), mask[i] = true ↔ Q ys[i]) →
      ((xs.zip ys).filter fun p => decide (Q p.2)).map g =
        maskL mask ((xs.zip ys).map g) := by
  intro mask
  induction mask with
  | nil =>
    intro xs ys hx hy _
    have : xs = [] := List.length_eq_zero_iff.1 hx.symm
    subst this
    simp [maskL]
  | cons b bs ih =>
    intro xs ys hx hy h
    cases xs with
    | nil => simp at hx
    | cons x xs =>
      cases ys with
      | nil => simp at hy
      | cons y ys =>
        have h0 := h 0 (by simp) (by simp)
        simp only [List.getElem_cons_zero] at h0
        have ih' := ih xs ys (by simpa using hx) (by simpa using hy) (by
          intro i hi hi'
          have := h (i + 1) (by simpa using hi) (by simpa using hi')
          simpa using this)
        cases b with
        | true =>
          have hq : Q y := h0.1 rfl
          simp [maskL, hq, ih']
        | false =>
          have hq : ¬ Q y := fun hq => by simpa using h0.2 hq
          simp [maskL, hq, ih']

theorem zip_map_fst {α β : Type*} (xs : List α) (ys : List β) (h : xs.length = ys.length) :
    (xs.zip ys).map Prod.fst = xs := by
  rw [List.map_fst_zip (by omega)]

theorem zip_map_snd {α β : Type*} (xs : List α) (ys : List β) (h : xs.length = ys.length) :
    (xs.zip ys).map Prod.snd = ys := by
  rw [List.map_snd_zip (by omega)]

/-- The mask used by `append_to_data` is the specification. -/
theorem mask_spec {cfg : Cfg P PX Θ K} (hc : CfgOk cfg) {ys : List (Ext K)}
    (hg : cfg.useSvm = true → ∀ y ∈ ys, Good y) {thrKeep : Ext K} {mask : List Bool}
    (h : if cfg.useSvm then diffThresholdKeepN cfg.eps ys cfg.keepMin cfg.thr = .ok thrKeep ∧
          isFiniteAll thrKeep ys = .ok mask
        else thrKeep = cfg.thr ∧ mask = ys.map fun _ => true) :
    mask.length = ys.length ∧
      ∀ i (h : i < ys.length) (h' : i < mask.length), mask[i] = true ↔ KeptBy cfg ys ys[i] := by
  cases hu : cfg.useSvm with
  | false =>
    simp only [hu, Bool.false_eq_true, if_false] at h
    obtain ⟨-, rfl⟩ := h
    refine ⟨by simp, ?_⟩
    intro i h h'
    simp [KeptBy, hu]
  | true =>
    simp only [hu, if_true] at h
    obtain ⟨hT, hM⟩ := h
    have hne : ys ≠ [] := by
      rintro rfl
      simp [isFiniteAll, Ext.npMax] at hM
    obtain ⟨T, m, hT', _, hm, hl, hspec⟩ := classify_eq ys (hg hu) hne cfg.thr hc.1 cfg.keepMin cfg.eps hc.2
    rw [hT] at hT'; cases hT'
    rw [hM] at hm; cases hm
    refine ⟨hl, ?_⟩
    intro i h h'
    rw [hspec i h h']
    simp [KeptBy, hu]

theorem numAbove_append (c : K) (l l' : List (Ext K)) :
    numAbove c (l ++ l') = numAbove c l + numAbove c l' := by
  unfold numAbove; rw [List.countP_append]

theorem within_of_le {thr : Ext K} {a b : K} (h : Within thr b) (hab : a ≤ b) : Within thr a := by
  rcases h with h | ⟨t, ht, h⟩
  · exact .inl h
  · exact .inr ⟨t, ht, hab.trans h⟩

/-- A largest real value of a list, if it has any. -/
theorem exists_max_fin (ys : List (Ext K)) (h : ∃ v, Ext.fin v ∈ ys) :
    ∃ m, Ext.fin m ∈ ys ∧ ∀ w, Ext.fin w ∈ ys → w ≤ m := by
  induction ys with
  | nil => simp at h
  | cons y ys ih =>
    by_cases h' : ∃ v, Ext.fin v ∈ ys
    · obtain ⟨m, hm, hmax⟩ := ih h'
      cases y with
      | fin a =>
        by_cases ha : a ≤ m
        · exact ⟨m, by simp [hm], by
            intro w hw
            rcases List.mem_cons.1 hw with hw | hw
            · cases hw; exact ha
            · exact hmax w hw⟩
        · exact ⟨a, by simp, by
            intro w hw
            rcases List.mem_cons.1 hw with hw | hw
            · cases hw; exact le_rfl
            · exact (hmax w hw).trans (not_le.1 ha).le⟩
      | _ => exact ⟨m, by simp [hm], by
            intro w hw
            rcases List.mem_cons.1 hw with hw | hw
            · cases hw
            · exact hmax w hw⟩
    · obtain ⟨v, hv⟩ := h
      rcases List.mem_cons.1 hv with hv | hv
      · exact ⟨v, by simp [hv], by
          intro w hw
          rcases List.mem_cons.1 hw with hw | hw
          · rw [← hv] at hw; cases hw; exact le_rfl
          · exact absurd ⟨w, hw⟩ h'⟩
      · exact absurd ⟨v, hv⟩ h'

/-- The largest real target is always kept. -/
theorem kept_max {thr : Ext K} (hthr : ThrOk thr) (n : ℕ) (eps : K) {ys : List (Ext K)} {m : K}
    (hmax : ∀ w, Ext.fin w ∈ ys → w ≤ m) : Kept thr n eps ys (.fin m) := by
  refine ⟨m, rfl, .inl ?_⟩
  intro w hw
  have := hmax w hw
  rcases hthr with h | ⟨t, ht, h0⟩
  · exact .inl h
  · exact .inr ⟨t, ht, by linarith⟩

/-- If none of the new targets is kept, the classification of the old ones does not change. -/
theorem kept_append_of_rejected {thr : Ext K} (hthr : ThrOk thr) {n : ℕ} {eps : K} (heps : 0 ≤ eps)
    {ys zs : List (Ext K)} (hrej : ∀ z ∈ zs, ¬ Kept thr n eps (ys ++ zs) z) (y : Ext K) :
    Kept thr n eps (ys ++ zs) y ↔ Kept thr n eps ys y := by
  constructor
  · rintro ⟨v, rfl, h | ⟨hn, h⟩⟩
    · exact ⟨v, rfl, .inl fun w hw => h w (List.mem_append_left _ hw)⟩
    · refine ⟨v, rfl, .inr ⟨hn, ?_⟩⟩
      rw [numAbove_append] at h; omega
  · rintro ⟨v, rfl, h | ⟨hn, h⟩⟩
    · refine ⟨v, rfl, .inl ?_⟩
      intro w hw
      obtain ⟨m, hm, hmax⟩ := exists_max_fin (ys ++ zs) ⟨w, hw⟩
      have hmy : Ext.fin m ∈ ys := by
        rcases List.mem_append.1 hm with h' | h'
        · exact h'
        · exact absurd (kept_max hthr n eps hmax) (hrej _ h')
      exact within_of_le (h m hmy) (by have := hmax w hw; linarith)
    · refine ⟨v, rfl, .inr ⟨hn, ?_⟩⟩
      by_contra hcon
      rw [numAbove_append] at hcon
      have hz : 0 < numAbove (v + eps) zs := by omega
      unfold numAbove at hz
      rw [List.countP_pos_iff] at hz
      obtain ⟨z, hz, hzv⟩ := hz
      cases z with
      | fin z0 =>
        obtain ⟨m, hm, hmax⟩ := exists_max_fin zs ⟨z0, hz⟩
        have hvm : v + eps < m := by
          have := hmax z0 hz
          simp at hzv; linarith
        apply hrej _ hm
        refine ⟨m, rfl, .inr ⟨hn, ?_⟩⟩
        rw [numAbove_append]
        have h1 : numAbove (m + eps) zs = 0 := by
          unfold numAbove
          rw [List.countP_eq_zero]
          intro w hw
          cases w with
          | fin a => have := hmax a hw; simp; linarith
          | _ => simp
        have h2 : numAbove (m + eps) ys ≤ numAbove (v + eps) ys := by
          unfold numAbove
          apply List.countP_mono_left
          intro w _ hw
          cases w with
          | fin a => simp at hw ⊢; linarith
          | _ => simp at hw
        omega
      | _ => simp at hzv

theorem lastSlice_eq_drop {α : Type*} (n : ℕ) (xs : List α) (h0 : n ≠ 0) :
    lastSlice n xs = xs.drop (xs.length - n) := by simp [lastSlice, h0]

/-- What one successful call does to the data. -/
theorem append_data {cfg : Cfg P PX Θ K} (hc : CfgOk cfg) {st st' : State P PX Θ K} {c : Call P K}
    (hg : cfg.useSvm = true → ∀ y ∈ st.yAll ++ c.ys, Good y) (hl : st.xAll.length = st.yAll.length)
    (h : append cfg st c = (st', none)) :
    st'.xAll = st.xAll ++ c.xs ∧ st'.yAll = st.yAll ++ c.ys ∧ st'.nLast = c.ys.length ∧
    c.xs.length = c.ys.length ∧
    ∃ mask : List Bool, mask.length = st'.yAll.length ∧
      (∀ i (h : i < st'.yAll.length) (h' : i < mask.length),
        mask[i] = true ↔ KeptBy cfg st'.yAll st'.yAll[i]) ∧
      (st'.nLastFinite = (if cfg.useSvm then lastSlice c.ys.length mask
        else List.replicate c.ys.length true).count true) ∧
      ((c.fitClf || c.fit != .no) = true → cfg.useSvm = true → st'.svm.yFinite = mask ∧
        st'.svm.yTrain.length = st'.yAll.length) ∧
      ((st'.nLastFinite = 0 ∧ st'.xTrain = st.xTrain ∧ st'.yTrain = st.yTrain) ∨
       (st'.xTrain = maskL mask st'.xAll ∧ st'.yTrain = maskL mask st'.yAll)) := by
  obtain ⟨_, nz, noise, thrKeep, mask, _, _, hcls, hmid⟩ := append_ok h
  obtain ⟨hml, hms⟩ := mask_spec hc hg hcls
  obtain ⟨hlen, py, yAll', noise', svm, lastMask, hpy, hy', _, hsvm, hlm, hend⟩ := appendMid_ok hmid
  have hcl : c.xs.length = c.ys.length := by
    simp only [List.length_append] at hml hlen; omega
  have hmapE : ∀ (f : Ext K → Except Err (Ext K)) (l l' : List (Ext K)), mapE f l = .ok l' →
      l'.length = l.length := by
    intro f l
    induction l with
    | nil => intro l' h; simp [mapE] at h; subst h; rfl
    | cons a l ih =>
      intro l' h
      simp only [mapE] at h
      split at h
      · simp at h
      · split at h
        · simp at h
        · rename_i bs hbs
          cases h
          simp [ih bs hbs]
  have hfit : ∀ (s : Svm K) (y : List (Ext K)) (t : Ext K) (s' : Svm K) (f : List Bool),
      s.fit y t = (s', .ok f) → s'.yFinite = f ∧ s'.yTrain = y := by
    intro s y t s' f h
    unfold Svm.fit at h
    split at h
    · obtain ⟨rfl, hf⟩ := Prod.mk.inj h
      cases hf; exact ⟨rfl, rfl⟩
    · split at h
      · simp at h
      · dsimp only at h
        split at h
        · obtain ⟨rfl, hf⟩ := Prod.mk.inj h
          cases hf; exact ⟨rfl, rfl⟩
        · split at h
          · obtain ⟨rfl, hf⟩ := Prod.mk.inj h
            cases hf; exact ⟨rfl, rfl⟩
          · simp at h
  have hsvm' : (c.fitClf || c.fit != .no) = true → cfg.useSvm = true →
      svm.yFinite = mask ∧ svm.yTrain.length = (st.yAll ++ c.ys).length := by
    intro h1 h2
    rw [if_pos ⟨h2, h1⟩] at hsvm
    obtain ⟨thr', _, hs⟩ := hsvm
    obtain ⟨a, b⟩ := hfit _ _ _ _ _ hs
    exact ⟨a, by rw [b]; exact hmapE _ _ _ hy'⟩
  subst hlm
  rcases hend with ⟨h0, _, rfl⟩ | ⟨hn, hfit⟩
  · exact ⟨rfl, rfl, rfl, hcl, mask, hml, hms, rfl, hsvm', .inl ⟨h0, rfl, rfl⟩⟩
  · obtain ⟨a1, a2, _, _, _, a6, a7, a8, a9, a10, _⟩ := appendFit_ok hfit
    refine ⟨a1, a2, a7, hcl, mask, ?_, ?_, ?_, ?_, .inr ⟨?_, ?_⟩⟩
    · rw [a2]; exact hml
    · rw [a2]; exact hms
    · rw [a8]
    · rw [a2, a6]; exact hsvm'
    · rw [a9, a1]
    · rw [a10, a2]

/-- Invariant: the stored training set is the specified one. -/
def Inv (cfg : Cfg P PX Θ K) (st : State P PX Θ K) : Prop :=
  st.xAll.length = st.yAll.length ∧ (cfg.useSvm = true → ∀ y ∈ st.yAll, Good y) ∧
  st.xTrain = (specTrain cfg st.xAll st.yAll).map Prod.fst ∧
  st.yTrain = (specTrain cfg st.xAll st.yAll).map Prod.snd

theorem inv_init (cfg : Cfg P PX Θ K) (px : PX) (py : PreY K) (s : Noise K) :
    Inv cfg (State.init px py s : State P PX Θ K) := by
  simp [Inv, State.init, specTrain]

theorem specTrain_rejected {cfg : Cfg P PX Θ K} (hc : CfgOk cfg) {xs xs' : List P}
    {ys ys' : List (Ext K)} (hl : xs.length = ys.length)
    (hrej : ∀ z ∈ ys', ¬ KeptBy cfg (ys ++ ys') z) :
    specTrain cfg (xs ++ xs') (ys ++ ys') = specTrain cfg xs ys := by
  classical
  unfold specTrain
  rw [List.zip_append hl, List.filter_append]
  have h2 : (xs'.zip ys').filter (fun p => decide (KeptBy cfg (ys ++ ys') p.2)) = [] := by
    rw [List.filter_eq_nil_iff]
    intro p hp
    have := hrej p.2 (List.of_mem_zip hp).2
    simpa using this
  rw [h2, List.append_nil]
  apply List.filter_congr
  intro p hp
  have : KeptBy cfg (ys ++ ys') p.2 ↔ KeptBy cfg ys p.2 := by
    unfold KeptBy
    cases hu : cfg.useSvm with
    | false => simp
    | true =>
      simp only [true_implies]
      apply kept_append_of_rejected hc.1 hc.2
      intro z hz hk
      exact hrej z hz (fun _ => hk)
  simp [this]

theorem inv_step {cfg : Cfg P PX Θ K} (hc : CfgOk cfg) {st st' : State P PX Θ K} {c : Call P K}
    (hg : cfg.useSvm = true → ∀ y ∈ c.ys, Good y) (hi : Inv cfg st)
    (h : append cfg st c = (st', none)) : Inv cfg st' := by
  obtain ⟨hl, hgood, hx, hy⟩ := hi
  have hg' : cfg.useSvm = true → ∀ y ∈ st.yAll ++ c.ys, Good y := by
    intro hu y hy
    rcases List.mem_append.1 hy with hy | hy
    · exact hgood hu y hy
    · exact hg hu y hy
  obtain ⟨hxa, hya, -, hcl, mask, hml, hms, hnf, -, hend⟩ := append_data hc hg' hl h
  have hl' : st'.xAll.length = st'.yAll.length := by rw [hxa, hya]; simp [hl, hcl]
  refine ⟨hl', by rw [hya]; exact hg', ?_⟩
  rcases hend with ⟨h0, hxt, hyt⟩ | ⟨hxt, hyt⟩
  · -- early return: nothing new is kept
    have hspec : specTrain cfg st'.xAll st'.yAll = specTrain cfg st.xAll st.yAll := by
      rw [hxa, hya]
      apply specTrain_rejected hc hl
      intro z hz
      rw [h0] at hnf
      cases hu : cfg.useSvm with
      | false =>
        rw [hu] at hnf
        simp only [Bool.false_eq_true, if_false, List.count_replicate_self] at hnf
        have : c.ys = [] := List.length_eq_zero_iff.1 hnf.symm
        rw [this] at hz; simp at hz
      | true =>
        rw [hu] at hnf
        simp only [if_true] at hnf
        obtain ⟨i, hi, rfl⟩ := List.mem_iff_getElem.1 hz
        have hne : c.ys.length ≠ 0 := by omega
        simp only [lastSlice, hne, if_false] at hnf
        have hcount := List.count_eq_zero.1 hnf.symm
        have hya' : st'.yAll.length = st.yAll.length + c.ys.length := by rw [hya]; simp
        have hidx : st.yAll.length + i < mask.length := by omega
        have hm : mask[st.yAll.length + i] = false := by
          by_contra hcon
          apply hcount
          have htrue : mask[st.yAll.length + i] = true := by simpa using hcon
          rw [List.mem_drop_iff_getElem]
          exact ⟨i, by omega, by rw [← htrue]; congr 1; omega⟩
        have hk := hms (st.yAll.length + i) (by omega) hidx
        rw [hm] at hk
        simp only [Bool.false_eq_true, false_iff] at hk
        have he : st'.yAll[st.yAll.length + i]'(by omega) = c.ys[i] := by
          simp only [hya]
          rw [List.getElem_append_right (by omega)]
          congr 1; omega
        rw [he, hya] at hk
        exact hk
    rw [hspec, hxt, hyt]
    exact ⟨hx, hy⟩
  · classical
    unfold specTrain
    rw [maskL_eq_filter (KeptBy cfg st'.yAll) Prod.fst mask st'.xAll st'.yAll (by omega) hml hms,
      maskL_eq_filter (KeptBy cfg st'.yAll) Prod.snd mask st'.xAll st'.yAll (by omega) hml hms,
      zip_map_fst _ _ hl', zip_map_snd _ _ hl']
    exact ⟨hxt, hyt⟩

/-! ## C10 -/

/-- **C10.** After any successful history of `append_to_data` calls (any fitting options, any noise
arguments, batches that are empty or without finite points included): everything appended is stored in
order, and `(X_train, y_train)` is exactly the sub-sequence kept by the specification. -/
theorem C10_training_partition {cfg : Cfg P PX Θ K} (hc : CfgOk cfg) (px : PX) (py : PreY K) (s : Noise K)
    (calls : List (Call P K)) (hg : cfg.useSvm = true → ∀ c ∈ calls, ∀ y ∈ c.ys, Good y)
    {st : State P PX Θ K} (h : run cfg (State.init px py s) calls = some st) :
    st.xAll = (calls.map Call.xs).flatten ∧ st.yAll = (calls.map Call.ys).flatten ∧
    st.xAll.length = st.yAll.length ∧
    st.xTrain = (specTrain cfg st.xAll st.yAll).map Prod.fst ∧
    st.yTrain = (specTrain cfg st.xAll st.yAll).map Prod.snd := by
  suffices H : ∀ (calls : List (Call P K)) (st0 : State P PX Θ K), Inv cfg st0 →
      (cfg.useSvm = true → ∀ c ∈ calls, ∀ y ∈ c.ys, Good y) → run cfg st0 calls = some st →
      Inv cfg st ∧ st.xAll = st0.xAll ++ (calls.map Call.xs).flatten ∧
      st.yAll = st0.yAll ++ (calls.map Call.ys).flatten by
    obtain ⟨h1, h2, h3⟩ := H calls _ (inv_init cfg px py s) hg h
    exact ⟨by simpa [State.init] using h2, by simpa [State.init] using h3, h1.1, h1.2.2⟩
  clear h hg calls
  intro calls
  induction calls with
  | nil =>
    intro st0 hi _ h
    simp only [run, Option.some.injEq] at h
    subst h
    simp [hi]
  | cons c cs ih =>
    intro st0 hi hg h
    simp only [run] at h
    split at h
    · rename_i st1 heq
      have hi1 := inv_step hc (fun hu => hg hu c (by simp)) hi heq
      have hg' : cfg.useSvm = true → ∀ y ∈ st0.yAll ++ c.ys, Good y := by
        intro hu y hy
        rcases List.mem_append.1 hy with hy | hy
        · exact hi.2.1 hu y hy
        · exact hg hu c (by simp) y hy
      obtain ⟨a, b, -⟩ := append_data hc hg' hi.1 heq
      obtain ⟨h1, h2, h3⟩ := ih st1 hi1 (fun hu c' hc' => hg hu c' (by simp [hc'])) h
      refine ⟨h1, ?_, ?_⟩
      · rw [h2, a]; simp
      · rw [h3, b]; simp
    · simp at h

open Classical in
/-- **C10**, complementary set: after a successful call that refits the classifier, `X_train_infinite`,
`y_train_infinite` are the points not kept, and sizes add up.  (Without refitting see
`C10_infinite_stale`.) -/
theorem C10_infinite_complement {cfg : Cfg P PX Θ K} (hc : CfgOk cfg) (hu : cfg.useSvm = true)
    {st st' : State P PX Θ K} {c : Call P K} (hi : Inv cfg st) (hg : ∀ y ∈ c.ys, Good y)
    (hfc : c.fitClf = true ∨ c.fit ≠ .no) (h : append cfg st c = (st', none)) :
    trainInfinite cfg st' = .ok ((specInf cfg st'.xAll st'.yAll).map Prod.fst,
      (specInf cfg st'.xAll st'.yAll).map Prod.snd) ∧
    st'.yTrain.length + (specInf cfg st'.xAll st'.yAll).length = st'.yAll.length ∧
    nTotal cfg st' = st'.yAll.length := by
  have hi' := inv_step hc (fun _ => hg) hi h
  obtain ⟨hl, hgood, hx, hy⟩ := hi
  have hg' : cfg.useSvm = true → ∀ y ∈ st.yAll ++ c.ys, Good y := by
    intro hu y hy
    rcases List.mem_append.1 hy with hy | hy
    · exact hgood hu y hy
    · exact hg y hy
  obtain ⟨hxa, hya, -, hcl, mask, hml, hms, hnf, hsvm, hend⟩ := append_data hc hg' hl h
  have hfc' : (c.fitClf || c.fit != .no) = true := by
    rcases hfc with h | h
    · simp [h]
    · simp [h]
  obtain ⟨hyf, hyt⟩ := hsvm hfc' hu
  have hl' := hi'.1
  have hneg : ∀ i (h : i < st'.yAll.length) (h' : i < (mask.map (!·)).length),
      (mask.map (!·))[i] = true ↔ ¬ KeptBy cfg st'.yAll st'.yAll[i] := by
    intro i h1 h2
    rw [List.getElem_map, ← hms i h1 (by simpa using h2)]
    simp
  have hf1 := maskL_eq_filter (fun y => ¬ KeptBy cfg st'.yAll y) Prod.fst (mask.map (!·)) st'.xAll
    st'.yAll (by simp; omega) (by simpa using hml) hneg
  have hf2 := maskL_eq_filter (fun y => ¬ KeptBy cfg st'.yAll y) Prod.snd (mask.map (!·)) st'.xAll
    st'.yAll (by simp; omega) (by simpa using hml) hneg
  simp only [decide_not] at hf1 hf2
  rw [zip_map_fst _ _ hl'] at hf1
  rw [zip_map_snd _ _ hl'] at hf2
  have hne : st'.yAll ≠ [] := by
    intro h0
    obtain ⟨_, _, _, _, m, _, _, hcls, _⟩ := append_ok h
    rw [if_pos hu] at hcls
    have := hcls.2
    rw [← hya, h0] at this
    simp [isFiniteAll, Ext.npMax] at this
  refine ⟨?_, ?_, ?_⟩
  · unfold trainInfinite
    rw [if_pos hu, if_neg]
    · rw [hyf]
      simp only [maskChecked, List.length_map]
      rw [if_pos (by omega), if_pos (by omega)]
      simp only [specInf, hf1, hf2]
    · rintro ⟨h1, -, -⟩
      rw [List.isEmpty_iff] at h1
      rw [h1] at hyt
      exact hne (List.length_eq_zero_iff.1 (by simpa using hyt.symm))
  · rw [hi'.2.2.2, List.length_map]
    unfold specTrain specInf
    have : ∀ (l : List (P × Ext K)) (p : P × Ext K → Bool),
        (l.filter p).length + (l.filter fun x => !p x).length = l.length := by
      intro l p
      induction l with
      | nil => rfl
      | cons a l ih => by_cases hp : p a <;> simp [hp] <;> omega
    rw [this]
    simp [hl']
  · unfold nTotal
    have : st'.yAll.length ≠ 0 := by simpa using hne
    rw [if_pos hu, hyt, if_pos this]

/-! ## C63 -/

/-- **C63** (partial: appends that skip the classifier are excluded, see `C63_stale_counterexample`).
`n_total` is the number of points appended so far: after any successful history whose last call refits
the classifier, or any history without classifier. -/
theorem C63_n_total_partial {cfg : Cfg P PX Θ K} (hc : CfgOk cfg) (px : PX) (py : PreY K) (s : Noise K)
    (calls : List (Call P K)) (c : Call P K) (hg : ∀ c' ∈ calls ++ [c], ∀ y ∈ c'.ys, Good y)
    (hfc : cfg.useSvm = true → c.fitClf = true ∨ c.fit ≠ .no)
    {st : State P PX Θ K} (h : run cfg (State.init px py s) (calls ++ [c]) = some st) :
    nTotal cfg st = ((calls ++ [c]).map fun c => c.ys.length).sum := by
  have h10 := C10_training_partition hc px py s (calls ++ [c]) (fun _ => hg) h
  have hlen : st.yAll.length = ((calls ++ [c]).map fun c => c.ys.length).sum := by
    rw [h10.2.1, List.length_flatten, List.map_map]; rfl
  cases hu : cfg.useSvm with
  | true =>
    -- state before the last call
    have hrun : ∀ (cs : List (Call P K)) (st0 : State P PX Θ K), Inv cfg st0 →
        (∀ c' ∈ cs, ∀ y ∈ c'.ys, Good y) → run cfg st0 (cs ++ [c]) = some st →
        ∃ st1, Inv cfg st1 ∧ append cfg st1 c = (st, none) := by
      intro cs
      induction cs with
      | nil =>
        intro st0 hi _ h
        simp only [List.nil_append, run] at h
        split at h
        · rename_i st1 heq; simp only [Option.some.injEq] at h; subst h; exact ⟨st0, hi, heq⟩
        · simp at h
      | cons c' cs ih =>
        intro st0 hi hgs h
        simp only [List.cons_append, run] at h
        split at h
        · rename_i st1 heq
          exact ih st1 (inv_step hc (fun _ => hgs c' (by simp)) hi heq)
            (fun c'' h'' => hgs c'' (by simp [h''])) h
        · simp at h
    obtain ⟨st1, hi1, happ⟩ := hrun calls _ (inv_init cfg px py s) (fun c' h' => hg c' (by simp [h'])) h
    rw [(C10_infinite_complement hc hu hi1 (hg c (by simp)) (hfc hu) happ).2.2, hlen]
  | false =>
    unfold nTotal
    simp only [hu, Bool.false_eq_true, if_false]
    rw [h10.2.2.2.2]
    unfold specTrain
    rw [← hlen, List.length_map, List.filter_eq_self.2]
    · simp [h10.2.2.1]
    · intro p _; simp [KeptBy, hu]

/-! ## C11 -/

/-- Number of real targets. -/
def numReal (ys : List (Ext K)) : ℕ := ys.countP Ext.isFinite

open Classical in
/-- Counting form of **C11**: at least `min m (#real)` targets are kept. -/
theorem kept_count {thr : Ext K} (hthr : ThrOk thr) {m : ℕ} {eps : K} (heps : 0 ≤ eps) (ys : List (Ext K)) :
    min m (numReal ys) ≤ ys.countP fun y => decide (Kept thr m eps ys y) := by
  by_cases hall : ∀ v, Ext.fin v ∈ ys → Kept thr m eps ys (.fin v)
  · have : numReal ys ≤ ys.countP fun y => decide (Kept thr m eps ys y) := by
      unfold numReal
      apply List.countP_mono_left
      intro y hy hf
      cases y with
      | fin v => simpa using hall v hy
      | _ => simp [Ext.isFinite] at hf
    omega
  · push Not at hall
    obtain ⟨v0, hv0, hk0⟩ := hall
    -- largest real target that is not kept
    obtain ⟨w, hw, hwmax⟩ := exists_max_fin (ys.filter fun y => !decide (Kept thr m eps ys y))
      ⟨v0, by simp [hv0, hk0]⟩
    simp only [List.mem_filter, Bool.not_eq_true', decide_eq_false_iff_not] at hw hwmax
    obtain ⟨hwy, hwk⟩ := hw
    have habove : ∀ u, Ext.fin u ∈ ys → w < u → Kept thr m eps ys (.fin u) := by
      intro u hu hwu
      by_contra hcon
      exact absurd (hwmax u ⟨hu, hcon⟩) (not_le.2 hwu)
    have hcount : numAbove w ys ≤ ys.countP fun y => decide (Kept thr m eps ys y) := by
      unfold numAbove
      apply List.countP_mono_left
      intro y hy hf
      cases y with
      | fin u => simp only [decide_eq_true_eq] at hf; simpa using habove u hy hf
      | _ => simp at hf
    have hm : m ≤ numAbove w ys := by
      by_cases hm2 : 2 ≤ m
      · have : ¬ numAbove (w + eps) ys < m := fun h => hwk ⟨w, rfl, .inr ⟨hm2, h⟩⟩
        have h2 : numAbove (w + eps) ys ≤ numAbove w ys := by
          unfold numAbove
          apply List.countP_mono_left
          intro y _ hf
          cases y with
          | fin u => simp at hf ⊢; linarith
          | _ => simp at hf
        omega
      · obtain ⟨M, hM, hMmax⟩ := exists_max_fin ys ⟨w, hwy⟩
        have hne : w < M := lt_of_le_of_ne (hMmax w hwy) (by
          rintro rfl; exact hwk (kept_max hthr m eps hMmax))
        have : 0 < numAbove w ys := by
          unfold numAbove
          rw [List.countP_pos_iff]
          exact ⟨_, hM, by simpa using hne⟩
        omega
    omega

/-- The kept targets are upward closed: they are the largest ones. -/
theorem kept_upward {thr : Ext K} {m : ℕ} {eps : K} {ys : List (Ext K)} {v w : K} (hvw : v ≤ w)
    (h : Kept thr m eps ys (.fin v)) : Kept thr m eps ys (.fin w) := by
  obtain ⟨v', hv', h | ⟨hm, h⟩⟩ := h
  · cases hv'
    exact ⟨w, rfl, .inl fun u hu => within_of_le (h u hu) (by linarith)⟩
  · cases hv'
    refine ⟨w, rfl, .inr ⟨hm, lt_of_le_of_lt ?_ h⟩⟩
    unfold numAbove
    apply List.countP_mono_left
    intro y _ hf
    cases y with
    | fin u => simp at hf ⊢; linarith
    | _ => simp at hf

/-- **C11.** After any successful history with classifier: at least
`min keep_min_finite (number of real targets)` points are in the training set; the training set consists
of the largest targets; and a point in it is either within the user's threshold of the maximum, or (for
`keep_min_finite ≥ 2`) has fewer than `keep_min_finite` targets above it by more than `eps`. -/
theorem C11_keep_min_finite {cfg : Cfg P PX Θ K} (hc : CfgOk cfg) (hu : cfg.useSvm = true) (px : PX)
    (py : PreY K) (s : Noise K) (calls : List (Call P K)) (hg : ∀ c ∈ calls, ∀ y ∈ c.ys, Good y)
    {st : State P PX Θ K} (h : run cfg (State.init px py s) calls = some st) :
    min cfg.keepMin (numReal st.yAll) ≤ st.yTrain.length ∧
    (∀ v w, Ext.fin v ∈ st.yTrain → Ext.fin w ∈ st.yAll → v ≤ w → Ext.fin w ∈ st.yTrain) ∧
    (∀ y ∈ st.yTrain, ∃ v, y = .fin v ∧ ((∀ w, Ext.fin w ∈ st.yAll → Within cfg.thr (w - v)) ∨
      (2 ≤ cfg.keepMin ∧ numAbove (v + cfg.eps) st.yAll < cfg.keepMin))) := by
  classical
  obtain ⟨-, -, hl, -, hy⟩ := C10_training_partition hc px py s calls (fun _ => hg) h
  have hmem : ∀ y, y ∈ st.yTrain ↔ y ∈ st.yAll ∧ Kept cfg.thr cfg.keepMin cfg.eps st.yAll y := by
    intro y
    rw [hy]
    unfold specTrain
    simp only [List.mem_map, List.mem_filter, decide_eq_true_eq, KeptBy, hu, true_implies]
    constructor
    · rintro ⟨p, ⟨hp, hk⟩, rfl⟩
      exact ⟨(List.of_mem_zip hp).2, hk⟩
    · rintro ⟨hy, hk⟩
      have : y ∈ (st.xAll.zip st.yAll).map Prod.snd := by rw [zip_map_snd _ _ hl]; exact hy
      obtain ⟨p, hp, rfl⟩ := List.mem_map.1 this
      exact ⟨p, ⟨hp, hk⟩, rfl⟩
  refine ⟨?_, ?_, ?_⟩
  · have hlen : st.yTrain.length =
        st.yAll.countP fun y => decide (Kept cfg.thr cfg.keepMin cfg.eps st.yAll y) := by
      rw [hy]
      unfold specTrain
      rw [List.length_map, ← List.countP_eq_length_filter]
      have e : ∀ f : Ext K → Bool, st.yAll.countP f = (st.xAll.zip st.yAll).countP (f ∘ Prod.snd) := by
        intro f
        rw [← List.countP_map, zip_map_snd _ _ hl]
      rw [e]
      simp only [KeptBy, hu, true_implies]
      rfl
    rw [hlen]
    exact kept_count hc.1 hc.2 st.yAll
  · intro v w hv hw hvw
    exact (hmem _).2 ⟨hw, kept_upward hvw ((hmem _).1 hv).2⟩
  · intro y hy'
    exact ((hmem y).1 hy').2

/-! ## C12 -/

theorem maskL_append {α : Type*} : ∀ (m m' : List Bool) (xs xs' : List α), m.length = xs.length →
    maskL (m ++ m') (xs ++ xs') = maskL m xs ++ maskL m' xs' := by
  intro m
  induction m with
  | nil =>
    intro m' xs xs' h
    have : xs = [] := List.length_eq_zero_iff.1 h.symm
    subst this; simp [maskL]
  | cons b bs ih =>
    intro m' xs xs' h
    cases xs with
    | nil => simp at h
    | cons x xs => cases b <;> simp [maskL, ih m' xs xs' (by simpa using h)]

theorem maskL_length {α : Type*} : ∀ (m : List Bool) (xs : List α), m.length = xs.length →
    (maskL m xs).length = m.count true := by
  intro m
  induction m with
  | nil => intro xs h; simp [maskL]
  | cons b bs ih =>
    intro xs h
    cases xs with
    | nil => simp at h
    | cons x xs => cases b <;> simp [maskL, ih xs (by simpa using h)]

theorem lastSlice_maskL {α : Type*} (mask : List Bool) (as bs : List α) (n : ℕ)
    (hlen : mask.length = as.length + bs.length) (hpos : 0 < n)
    (hn : n = (mask.drop as.length).count true) :
    lastSlice n (maskL mask (as ++ bs)) = maskL (mask.drop as.length) bs := by
  rw [lastSlice_eq_drop _ _ (by omega)]
  conv_lhs => rw [show mask = mask.take as.length ++ mask.drop as.length from
    (List.take_append_drop _ _).symm]
  rw [maskL_append _ _ _ _ (by rw [List.length_take]; omega)]
  have hlb : (maskL (mask.drop as.length) bs).length = n := by
    rw [maskL_length _ _ (by rw [List.length_drop]; omega), hn]
  rw [List.length_append, hlb, Nat.add_sub_cancel, List.drop_left]

/-- **C12**, `last_appended`: after a successful append of a non-empty batch it returns exactly that
batch (for empty batches see `C12_empty_batch_counterexample`). -/
theorem C12_last_appended_partial {cfg : Cfg P PX Θ K} (hc : CfgOk cfg) {st st' : State P PX Θ K}
    {c : Call P K} (hi : Inv cfg st) (hg : cfg.useSvm = true → ∀ y ∈ c.ys, Good y) (hne : c.ys ≠ [])
    (h : append cfg st c = (st', none)) : lastAppended cfg st' = (c.xs, c.ys) := by
  have hi' := inv_step hc hg hi h
  obtain ⟨hl, hgood, hx, hy⟩ := hi
  have hg' : cfg.useSvm = true → ∀ y ∈ st.yAll ++ c.ys, Good y := by
    intro hu y hy
    rcases List.mem_append.1 hy with hy | hy
    · exact hgood hu y hy
    · exact hg hu y hy
  obtain ⟨hxa, hya, hnl, hcl, mask, hml, hms, hnf, -, hend⟩ := append_data hc hg' hl h
  have hn0 : c.ys.length ≠ 0 := by simpa using hne
  unfold lastAppended
  cases hu : cfg.useSvm with
  | true =>
    simp only [if_true]
    rw [hnl, lastSlice_eq_drop _ _ hn0, lastSlice_eq_drop _ _ hn0, hxa, hya]
    simp only [List.length_append]
    rw [show st.xAll.length + c.xs.length - c.ys.length = st.xAll.length by omega,
      show st.yAll.length + c.ys.length - c.ys.length = st.yAll.length by omega]
    simp
  | false =>
    simp only [Bool.false_eq_true, if_false, lastAppendedFinite]
    rw [hu] at hnf
    simp only [Bool.false_eq_true, if_false, List.count_replicate_self] at hnf
    have hall : ∀ (xs : List P) (ys : List (Ext K)), specTrain cfg xs ys = xs.zip ys := by
      intro xs ys
      unfold specTrain
      rw [List.filter_eq_self.2]
      intro p _; simp [KeptBy, hu]
    rw [hnf, lastSlice_eq_drop _ _ hn0, lastSlice_eq_drop _ _ hn0, hi'.2.2.1, hi'.2.2.2, hall,
      zip_map_fst _ _ hi'.1, zip_map_snd _ _ hi'.1, hxa, hya]
    simp only [List.length_append]
    rw [show st.xAll.length + c.xs.length - c.ys.length = st.xAll.length by omega,
      show st.yAll.length + c.ys.length - c.ys.length = st.yAll.length by omega]
    simp

open Classical in
/-- **C12**, `last_appended_finite`: after a successful append of a batch at least one of whose points is
kept, it returns exactly the kept points of the batch, in order. -/
theorem C12_last_appended_finite_partial {cfg : Cfg P PX Θ K} (hc : CfgOk cfg) {st st' : State P PX Θ K}
    {c : Call P K} (hi : Inv cfg st) (hg : cfg.useSvm = true → ∀ y ∈ c.ys, Good y)
    (h : append cfg st c = (st', none))
    (hkept : ∃ y ∈ c.ys, KeptBy cfg (st.yAll ++ c.ys) y) :
    lastAppendedFinite st' =
      (((c.xs.zip c.ys).filter fun p => decide (KeptBy cfg (st.yAll ++ c.ys) p.2)).map Prod.fst,
       ((c.xs.zip c.ys).filter fun p => decide (KeptBy cfg (st.yAll ++ c.ys) p.2)).map Prod.snd) := by
  have hi' := inv_step hc hg hi h
  obtain ⟨hl, hgood, hx, hy⟩ := hi
  have hg' : cfg.useSvm = true → ∀ y ∈ st.yAll ++ c.ys, Good y := by
    intro hu y hy
    rcases List.mem_append.1 hy with hy | hy
    · exact hgood hu y hy
    · exact hg hu y hy
  obtain ⟨hxa, hya, hnl, hcl, mask, hml, hms, hnf, -, hend⟩ := append_data hc hg' hl h
  obtain ⟨y0, hy0, hk0⟩ := hkept
  have hn0 : c.ys.length ≠ 0 := by
    intro h0
    rw [List.length_eq_zero_iff.1 h0] at hy0; simp at hy0
  -- split the mask
  have hmsplit : mask = mask.take st.yAll.length ++ mask.drop st.yAll.length :=
    (List.take_append_drop _ _).symm
  have hyl : st'.yAll.length = st.yAll.length + c.ys.length := by rw [hya]; simp
  have hlast : (if cfg.useSvm then lastSlice c.ys.length mask
      else List.replicate c.ys.length true) = mask.drop st.yAll.length := by
    cases hu : cfg.useSvm with
    | true =>
      simp only [if_true]
      rw [lastSlice_eq_drop _ _ hn0]
      congr 1; omega
    | false =>
      simp only [Bool.false_eq_true, if_false]
      symm
      rw [List.eq_replicate_iff]
      refine ⟨by rw [List.length_drop]; omega, ?_⟩
      intro b hb
      rw [List.mem_drop_iff_getElem] at hb
      obtain ⟨i, hi, rfl⟩ := hb
      refine (hms _ (by omega) (by omega)).2 ?_
      intro hu'; rw [hu] at hu'; cases hu'
  rw [hlast] at hnf
  have hdl : (mask.drop st.yAll.length).length = c.ys.length := by rw [List.length_drop]; omega
  have hms2 : ∀ i (h : i < c.ys.length) (h' : i < (mask.drop st.yAll.length).length),
      (mask.drop st.yAll.length)[i] = true ↔ KeptBy cfg (st.yAll ++ c.ys) c.ys[i] := by
    intro i h1 h2
    rw [List.getElem_drop, hms _ (by omega) (by omega)]
    have he : st'.yAll[st.yAll.length + i]'(by omega) = c.ys[i] := by
      simp only [hya]
      rw [List.getElem_append_right (by omega)]
      congr 1; omega
    rw [he, hya]
  have hpos : 0 < st'.nLastFinite := by
    rw [hnf, List.count_pos_iff]
    obtain ⟨i, hi, rfl⟩ := List.mem_iff_getElem.1 hy0
    have := (hms2 i hi (by omega)).2 hk0
    rw [← this]
    exact List.getElem_mem _
  rcases hend with ⟨h0, -, -⟩ | ⟨hxt, hyt⟩
  · omega
  · have hk1 := lastSlice_maskL mask st.xAll c.xs st'.nLastFinite (by omega) (by omega)
      (by rw [hl]; exact hnf)
    have hk2 := lastSlice_maskL mask st.yAll c.ys st'.nLastFinite (by omega) (by omega) hnf
    rw [hl] at hk1
    unfold lastAppendedFinite
    rw [maskL_eq_filter (KeptBy cfg (st.yAll ++ c.ys)) Prod.fst (mask.drop st.yAll.length) c.xs c.ys
        (by omega) hdl hms2,
      maskL_eq_filter (KeptBy cfg (st.yAll ++ c.ys)) Prod.snd (mask.drop st.yAll.length) c.xs c.ys
        (by omega) hdl hms2, zip_map_fst _ _ hcl, zip_map_snd _ _ hcl, hxt, hyt, hxa, hya,
      hk1, hk2]

end GPry.Gpr
