import Verif.GprProps

/-!
# Properties C09, C13, C19, C66, C70
-/

set_option linter.all false

namespace GPry.Gpr

variable {K : Type*} [Field K] [LinearOrder K] [IsStrictOrderedRing K] {P PX Θ : Type*}

/-! ## C09 -/

/-- **C09**, element-wise: an increasing affine map of targets, maximum and threshold does not change the
classification (all special values included). -/
theorem C09_raw_invariant (m s : K) (hs : 0 < s) (T M y : Ext K) :
    isFiniteRaw (T.divFin s) ((M.subFin m).divFin s) ((y.subFin m).divFin s) = isFiniteRaw T M y := by
  have hs' : ¬ s < 0 := not_lt.2 hs.le
  have hne : s ≠ 0 := hs.ne'
  have key : ∀ t k v : K, (k - m) / s - t / s ≤ (v - m) / s ↔ k - t ≤ v := by
    intro t k v
    rw [← sub_div, div_le_div_iff_of_pos_right hs]
    constructor <;> intro h <;> linarith
  cases T <;> cases M <;> cases y <;>
    simp [isFiniteRaw, Ext.subFin, Ext.divFin, Ext.sub, Ext.ge, Ext.le, Ext.isFinite, hs', hne, key]

/-- **C09**: the largest target is always classified as finite. -/
theorem C09_max_is_finite {ys : List (Ext K)} (hg : ∀ y ∈ ys, Good y) {T : Ext K} (hT : ThrOk T)
    {mask : List Bool} (hm : isFiniteAll T ys = .ok mask) {i : ℕ} (hi : i < ys.length) {v : K}
    (hv : ys[i] = .fin v) (hmax : ∀ w, Ext.fin w ∈ ys → w ≤ v) : mask[i]? = some true := by
  obtain ⟨M, hM, hMm, hMup⟩ := npMax_good ys hg (by rintro rfl; simp at hi)
  simp only [isFiniteAll, hM, Except.ok.injEq] at hm
  subst hm
  have hvm : Ext.fin v ∈ ys := hv ▸ List.getElem_mem hi
  have hle := hMup _ hvm
  rw [List.getElem?_map, List.getElem?_eq_getElem hi, hv, Option.map_some]
  rcases hg M hMm with rfl | ⟨m, rfl⟩
  · simp [Ext.le] at hle
  · have h1 := hmax m hMm
    rw [(within_iff T hT m v).2]
    rcases hT with h | ⟨t, ht, h0⟩
    · exact .inl h
    · exact .inr ⟨t, ht, by linarith⟩

theorem mapE_ok {α β : Type*} {f : α → Except Err β} {g : α → β} (h : ∀ a, f a = .ok (g a)) (l : List α) :
    mapE f l = .ok (l.map g) := by
  induction l with
  | nil => rfl
  | cons a l ih => simp [mapE, h, ih]

theorem svm_fit_any {s s' : Svm K} {y : List (Ext K)} {t : Ext K} {f : List Bool}
    (h : s.fit y t = (s', .ok f)) :
    (y.all (fun v => v.eqv .negInf) = true ∧ f = y.map fun _ => false) ∨
    (y.all (fun v => v.eqv .negInf) = false ∧ f.any id = true ∧
      ∃ M, Ext.pyMax y = some M ∧ f = y.map (isFiniteRaw t M)) := by
  unfold Svm.fit at h
  split at h
  · rename_i hall
    obtain ⟨rfl, hf⟩ := Prod.mk.inj h
    cases hf; exact .inl ⟨hall, rfl⟩
  · rename_i hall
    split at h
    · simp at h
    · rename_i M hM
      dsimp only at h
      right
      have hall' : y.all (fun v => v.eqv .negInf) = false := by simpa using hall
      have hne : y ≠ [] := by rintro rfl; simp at hall'
      refine ⟨hall', ?_⟩
      split at h
      · rename_i hf
        obtain ⟨rfl, hf'⟩ := Prod.mk.inj h
        cases hf'
        refine ⟨?_, M, hM, rfl⟩
        cases y with
        | nil => exact absurd rfl hne
        | cons a l => simp only [List.map_cons, List.all_cons, Bool.and_eq_true, id] at hf; simp [hf.1]
      · split at h
        · rename_i hf
          obtain ⟨rfl, hf'⟩ := Prod.mk.inj h
          cases hf'
          exact ⟨hf, M, hM, rfl⟩
        · simp at h

theorem tr_le (m s : K) (hs : 0 < s) (a b : Ext K) :
    Ext.lt ((a.subFin m).divFin s) ((b.subFin m).divFin s) = Ext.lt a b := by
  have hs' : ¬ s < 0 := not_lt.2 hs.le
  have hne : s ≠ 0 := hs.ne'
  cases a <;> cases b <;> simp [Ext.subFin, Ext.divFin, Ext.lt, hs', hne, div_lt_div_iff_of_pos_right hs]

theorem pyMax_map (m s : K) (hs : 0 < s) (ys : List (Ext K)) :
    Ext.pyMax (ys.map fun y => (y.subFin m).divFin s) =
      (Ext.pyMax ys).map fun y => (y.subFin m).divFin s := by
  cases ys with
  | nil => rfl
  | cons x xs =>
    simp only [Ext.pyMax, List.map_cons, Option.map_some, Option.some.injEq]
    induction xs generalizing x with
    | nil => rfl
    | cons z zs ih =>
      simp only [List.map_cons, List.foldl_cons]
      rw [← ih (Ext.pyMax2 x z)]
      congr 1
      unfold Ext.pyMax2 Ext.gt
      rw [tr_le m s hs]
      split_ifs <;> rfl

theorem eqv_negInf_tr (m s : K) (hs : 0 < s) (y : Ext K) :
    ((y.subFin m).divFin s).eqv .negInf = y.eqv .negInf := by
  have hs' : ¬ s < 0 := not_lt.2 hs.le
  have hne : s ≠ 0 := hs.ne'
  cases y <;> simp [Ext.subFin, Ext.divFin, Ext.eqv, Ext.le, hs', hne]

/-- **C09**, as used by `append_to_data`: for real or `-inf` targets, the classification made by the SVM
in the transformed space is the one made before in the original space. -/
theorem C09_fit_agrees {ys : List (Ext K)} (hg : ∀ y ∈ ys, Good y) {T : Ext K} {mask : List Bool}
    (hm : isFiniteAll T ys = .ok mask) (m s : K) (hs : 0 < s) {sv sv' : Svm K} {f : List Bool}
    (hf : sv.fit (ys.map fun y => (y.subFin m).divFin s) (T.divFin s) = (sv', .ok f)) : f = mask := by
  unfold isFiniteAll at hm
  split at hm
  · simp at hm
  · rename_i M hM
    cases hm
    rcases svm_fit_any hf with ⟨hall, rfl⟩ | ⟨_, _, M', hM', rfl⟩
    · rw [List.map_map]
      apply List.map_congr_left
      intro y hy
      rw [List.all_map, List.all_eq_true] at hall
      have := hall y hy
      simp only [Function.comp] at this ⊢
      rw [eqv_negInf_tr m s hs] at this
      rcases hg y hy with rfl | ⟨v, rfl⟩
      · simp [isFiniteRaw, Ext.isFinite]
      · simp [Ext.eqv, Ext.le] at this
    · rw [pyMax_map m s hs, pyMax_eq_npMax ys hg, hM] at hM'
      simp only [Option.map_some, Option.some.injEq] at hM'
      subst hM'
      rw [List.map_map]
      apply List.map_congr_left
      intro y _
      exact C09_raw_invariant m s hs T M y

theorem mapE_transform {py : PreY K} {ys ys' : List (Ext K)} (h : mapE py.transform ys = .ok ys')
    (hne : ys ≠ []) :
    (∃ m s, py = .aff m s ∧ ys' = ys.map fun y => (y.subFin m).divFin s) ∨
    (py = .nanAff ∧ ys' = ys.map fun _ => .nan) := by
  cases py with
  | unfitted =>
    cases ys with
    | nil => exact absurd rfl hne
    | cons a l => simp [mapE, PreY.transform] at h
  | aff m s =>
    left
    refine ⟨m, s, rfl, ?_⟩
    rw [mapE_ok (f := (PreY.aff m s).transform) (g := fun y => (y.subFin m).divFin s)
      (fun a => rfl)] at h
    cases h; rfl
  | nanAff =>
    right
    refine ⟨rfl, ?_⟩
    rw [mapE_ok (f := (PreY.nanAff : PreY K).transform) (g := fun _ => .nan) (fun a => rfl)] at h
    cases h; rfl

/-- **C09**: the consistency assertion inside `append_to_data` never fires for real or `-inf` targets, if
target preprocessors are increasing. -/
theorem C09_assertion_never_fires {cfg : Cfg P PX Θ K} {st : State P PX Θ K}
    {c : Call P K} (hg : ∀ y ∈ st.yAll ++ c.ys, Good y)
    (hfit : ∀ q xs ys m s, cfg.fitY q xs ys = .ok (.aff m s) → 0 < s)
    (herr : ∀ q xs ys, cfg.fitY q xs ys ≠ .error .assertionError) :
    (append cfg st c).2 ≠ some .assertionError := by
  intro hcon
  -- noise helpers
  have hv : ∀ (a : Noise K) (b : Option (Noise K)) (n : ℕ), validateNoise a b n ≠ .error .assertionError := by
    intro a b n
    unfold validateNoise
    split_ifs
    · simp
    · cases b with
      | none => cases a <;> simp
      | some b => cases b with
        | scalar k => cases a <;> simp
        | array ks => simp only; split_ifs <;> simp
  have hup : ∀ (a : Noise K) (b : Option (Noise K)) (n k : ℕ) (nz : Option (Noise K)),
      validateNoise a b n = .ok nz → updateNoise a nz k ≠ .error .assertionError := by
    intro a b n k nz h
    unfold validateNoise at h
    split_ifs at h
    cases b with
    | none => cases a <;> simp at h; subst h; simp [updateNoise]
    | some b => cases b with
      | scalar q => cases a <;> simp at h <;> subst h <;> simp [updateNoise]
      | array ks =>
        simp only at h
        split_ifs at h
        cases h
        cases a <;> simp [updateNoise]
  have hme : ∀ (py : PreY K) (l : List (Ext K)), mapE py.transform l ≠ .error .assertionError := by
    intro py l
    induction l with
    | nil => simp [mapE]
    | cons a l ih =>
      simp only [mapE]
      cases py <;> simp only [PreY.transform] <;> try simp
      all_goals
        split
        · rename_i e he; intro h; cases h; exact ih he
        · simp
  have hms : ∀ (py : PreY K) (l : List (Ext K)), mapE py.transformScale l ≠ .error .assertionError := by
    intro py l
    induction l with
    | nil => simp [mapE]
    | cons a l ih =>
      simp only [mapE]
      cases py <;> simp only [PreY.transformScale] <;> try simp
      all_goals
        split
        · rename_i e he; intro h; cases h; exact ih he
        · simp
  have hum : ∀ st : State P PX Θ K, (updateModel cfg st).2 ≠ some .assertionError := by
    intro st
    unfold updateModel
    split
    · simp
    · split
      · simp
      · split
        · simp
        · split <;> simp
  have hfh : ∀ n (st : State P PX Θ K), (fitHyper cfg n st).2 ≠ some .assertionError := by
    intro n st
    unfold fitHyper
    dsimp only
    split
    · split
      · simp
      · exact hum _
    · split
      · simp
      · have := hum { st with theta := some (cfg.optimise st.xTrain' st.yTrain' st.noiseVar st.theta
          (n.getD cfg.nRestarts)) }
        split
        · rename_i heq; rw [heq] at this; exact this
        · simp
  have haf : ∀ (st : State P PX Θ K) (c : Call P K) mask noise',
      (appendFit cfg st c mask noise').2 ≠ some .assertionError := by
    intro st c mask noise'
    unfold appendFit
    dsimp only
    split
    · rename_i e he; intro h; cases h; exact hme _ _ he
    · split
      · rename_i e he
        intro h; cases h
        unfold maskChecked at he
        split at he <;> simp at he
      · split
        · exact hfh _ _
        · exact hum _
  unfold append at hcon
  split at hcon
  · simp at hcon
  · dsimp only at hcon
    split at hcon
    · simp at hcon
    · split at hcon
      · rename_i e he
        simp only [Option.some.injEq] at hcon; subst hcon
        exact hv _ _ _ he
      · rename_i nz hnz
        split at hcon
        · rename_i e he
          simp only [Option.some.injEq] at hcon; subst hcon
          exact hup _ _ _ _ _ hnz he
        · rename_i noise hnoise
          -- the middle part
          have hmid : ∀ (st1 : State P PX Θ K) (fc : Bool) (T : Ext K) (mask : List Bool),
              (cfg.useSvm = true → isFiniteAll T st1.yAll = .ok mask) →
              (cfg.useSvm = true → ∀ y ∈ st1.yAll, Good y) →
              (appendMid cfg st1 c fc T mask).2 ≠ some .assertionError := by
            intro st1 fc T mask hmask hg1
            unfold appendMid
            split
            · simp
            · dsimp only
              split
              · rename_i e he
                intro h; cases h
                cases fc
                · simp at he
                · simp only [if_true] at he
                  exact herr _ _ _ he
              · rename_i py hpy
                split
                · rename_i e he; intro h; cases h; exact hme _ _ he
                · rename_i yAll' hy'
                  split
                  · rename_i e he; intro h; cases h; exact hms _ _ he
                  · split
                    · rename_i st2 e he
                      intro h; cases h
                      by_cases hu : cfg.useSvm = true
                      swap
                      · rw [if_neg hu] at he; simp at he
                      by_cases hfc : fc = true
                      swap
                      · rw [if_pos hu, if_neg hfc] at he; simp at he
                      rw [if_pos hu, if_pos hfc] at he
                      subst hfc
                      split at he
                      · rename_i e' he'
                        obtain ⟨-, h2⟩ := Prod.mk.inj he
                        cases h2
                        cases py <;> simp [PreY.transformScale] at he'
                      · rename_i thr' hthr'
                        split at he
                        · rename_i svm e' hsv
                          obtain ⟨-, h2⟩ := Prod.mk.inj he
                          cases h2
                          unfold Svm.fit at hsv
                          split at hsv
                          · simp at hsv
                          · split at hsv
                            · simp at hsv
                            · dsimp only at hsv
                              split at hsv
                              · simp at hsv
                              · split at hsv <;> simp at hsv
                        · rename_i svm f hsv
                          split at he
                          · simp at he
                          rename_i hfm
                          apply hfm
                          have hM := hmask hu
                          have hne : st1.yAll ≠ [] := by
                            intro h0; rw [h0] at hM; simp [isFiniteAll, Ext.npMax] at hM
                          simp only [if_true] at hpy hy' hsv
                          rcases mapE_transform hy' hne with ⟨m, s, rfl, rfl⟩ | ⟨rfl, rfl⟩
                          · simp only [PreY.transformScale, Except.ok.injEq] at hthr'
                            subst hthr'
                            exact C09_fit_agrees (hg1 hu) hM m s (hfit _ _ _ _ _ hpy) hsv
                          · exfalso
                            rcases svm_fit_any hsv with ⟨h1, _⟩ | ⟨_, h2, M, _, h3⟩
                            · cases hh : st1.yAll with
                              | nil => exact hne hh
                              | cons a l => rw [hh] at h1; simp [Ext.eqv, Ext.le] at h1
                            · rw [h3] at h2
                              simp [isFiniteRaw, Ext.isFinite] at h2
                    · split
                      · simp
                      · exact haf _ _ _ _
          split at hcon
          · rename_i hu
            split at hcon
            · rename_i e he
              simp only [Option.some.injEq] at hcon; subst hcon
              unfold diffThresholdKeepN at he
              split_ifs at he
              dsimp only at he
              split at he <;> simp at he
            · rename_i T hT
              split at hcon
              · rename_i e he
                simp only [Option.some.injEq] at hcon; subst hcon
                unfold isFiniteAll at he
                split at he <;> simp at he
              · rename_i mask hmask
                exact hmid _ _ _ _ (fun _ => hmask) (fun _ => hg) hcon
          · rename_i hu
            exact hmid _ _ _ _ (fun h => absurd h hu) (fun h => absurd h hu) hcon

/-! ## C70: one NaN or +inf spoils the regressor -/

/-- A target that is neither real nor `-inf`. -/
def Bad (y : Ext K) : Prop := y = .nan ∨ y = .posInf

theorem npMax_bad : ∀ (ys : List (Ext K)) (M : Ext K), (∃ y ∈ ys, Bad y) → Ext.npMax ys = some M → Bad M := by
  intro ys M hb h
  cases ys with
  | nil => simp [Ext.npMax] at h
  | cons x xs =>
    simp only [Ext.npMax, Option.some.injEq] at h
    induction xs generalizing x with
    | nil =>
      simp only [List.foldl_nil] at h; subst h
      simpa using hb
    | cons z zs ih =>
      simp only [List.foldl_cons] at h
      refine ih (Ext.npMax2 x z) ?_ h
      obtain ⟨y, hy, hyb⟩ := hb
      have h1 : Bad x → Bad (Ext.npMax2 x z) := by
        rintro (rfl | rfl)
        · left; simp [Ext.npMax2, Ext.isNan]
        · cases z <;> simp [Ext.npMax2, Ext.isNan, Ext.lt, Bad]
      have h2 : Bad z → Bad (Ext.npMax2 x z) := by
        rintro (rfl | rfl) <;> cases x <;> simp [Ext.npMax2, Ext.isNan, Ext.lt, Bad]
      rcases List.mem_cons.1 hy with rfl | hy
      · exact ⟨_, List.mem_cons_self, h1 hyb⟩
      · rcases List.mem_cons.1 hy with rfl | hy
        · exact ⟨_, List.mem_cons_self, h2 hyb⟩
        · exact ⟨y, by simp [hy], hyb⟩

theorem isFiniteRaw_bad (T M y : Ext K) (h : Bad M) : isFiniteRaw T M y = false := by
  rcases h with rfl | rfl <;> cases T <;> cases y <;>
    simp [isFiniteRaw, Ext.sub, Ext.ge, Ext.le, Ext.isFinite]

/-- **C70**, negation of the property for the code as it is: once a single NaN or `+inf` target has been
stored in a regressor with classifier, *every* later call that refits anything raises, whatever is
appended (increasing target preprocessors). -/
theorem C70_poisoned {cfg : Cfg P PX Θ K} (hu : cfg.useSvm = true) {st : State P PX Θ K} {c : Call P K}
    (hfc : c.fitClf = true ∨ c.fit ≠ .no) (hb : ∃ y ∈ st.yAll ++ c.ys, Bad y)
    (hfit : ∀ q xs ys m s, cfg.fitY q xs ys = .ok (.aff m s) → 0 < s) :
    (append cfg st c).2 ≠ none := by
  intro hnone
  have h : append cfg st c = ((append cfg st c).1, none) := by rw [← hnone]
  obtain ⟨_, nz, noise, T, mask, _, _, hcls, hmid⟩ := append_ok h
  rw [if_pos hu] at hcls
  obtain ⟨_, py, yAll', noise', svm, lastMask, hpy, hy', _, hsvm, _⟩ := appendMid_ok hmid
  have hfc' : (c.fitClf || c.fit != .no) = true := by rcases hfc with h | h <;> simp [h]
  rw [if_pos ⟨hu, hfc'⟩] at hsvm
  rw [if_pos hfc'] at hpy
  obtain ⟨thr', hthr', hs⟩ := hsvm
  have hM := hcls.2
  unfold isFiniteAll at hM
  split at hM
  · simp at hM
  · rename_i M hMx
    have hbad := npMax_bad _ _ hb hMx
    simp only [Except.ok.injEq] at hM
    have hmask : ∀ b ∈ mask, b = false := by
      rw [← hM]
      intro b hb'
      obtain ⟨y, _, rfl⟩ := List.mem_map.1 hb'
      exact isFiniteRaw_bad T M y hbad
    have hne : st.yAll ++ c.ys ≠ [] := by
      rintro h0; obtain ⟨y, hy, _⟩ := hb; rw [h0] at hy; simp at hy
    rcases svm_fit_any hs with ⟨hall, _⟩ | ⟨_, hany, _⟩
    · rw [List.all_eq_true] at hall
      obtain ⟨y, hy, hyb⟩ := hb
      rcases mapE_transform hy' hne with ⟨m, s, rfl, rfl⟩ | ⟨rfl, rfl⟩
      · have hs0 := hfit _ _ _ _ _ hpy
        have hs' : ¬ s < 0 := not_lt.2 hs0.le
        have := hall _ (List.mem_map.2 ⟨y, hy, rfl⟩)
        rcases hyb with rfl | rfl <;> simp [Ext.subFin, Ext.divFin, Ext.eqv, Ext.le, hs'] at this
      · have := hall _ (List.mem_map.2 ⟨y, hy, rfl⟩)
        simp [Ext.eqv, Ext.le] at this
    · rw [List.any_eq_true] at hany
      obtain ⟨b, hb', hbt⟩ := hany
      rw [hmask b hb'] at hbt; simp at hbt

/-- What a failing call stores: the batch is either refused up front or stored before the failure. -/
theorem append_yAll {cfg : Cfg P PX Θ K} (st : State P PX Θ K) (c : Call P K) :
    ((append cfg st c).1.yAll = st.yAll ∧ (append cfg st c).1 = st) ∨
      ((append cfg st c).1.yAll = st.yAll ++ c.ys ∧ (append cfg st c).1.xAll = st.xAll ++ c.xs) := by
  have hum : ∀ (st : State P PX Θ K), (updateModel cfg st).1.yAll = st.yAll ∧
      (updateModel cfg st).1.xAll = st.xAll := by
    intro st; have h := (updateModel_same cfg st).1; exact ⟨h.yAll, h.xAll⟩
  have hfh : ∀ n (st : State P PX Θ K), (fitHyper cfg n st).1.yAll = st.yAll ∧
      (fitHyper cfg n st).1.xAll = st.xAll := by
    intro n st; have h := (fitHyper_same cfg n st); exact ⟨h.yAll, h.xAll⟩
  have haf : ∀ (st : State P PX Θ K) mask noise', (appendFit cfg st c mask noise').1.yAll = st.yAll ∧
      (appendFit cfg st c mask noise').1.xAll = st.xAll := by
    intro st mask noise'
    unfold appendFit
    dsimp only
    split
    · exact ⟨rfl, rfl⟩
    · split
      · exact ⟨rfl, rfl⟩
      · split
        · exact hfh _ _
        · exact hum _
  have hmid : ∀ (st : State P PX Θ K) fc T mask, (appendMid cfg st c fc T mask).1.yAll = st.yAll ∧
      (appendMid cfg st c fc T mask).1.xAll = st.xAll := by
    intro st fc T mask
    unfold appendMid
    split
    · exact ⟨rfl, rfl⟩
    · dsimp only
      have e : ∀ px, (if fc = true then { st with px := px } else st : State P PX Θ K).yAll = st.yAll ∧
          (if fc = true then { st with px := px } else st : State P PX Θ K).xAll = st.xAll := by
        intro px; split <;> exact ⟨rfl, rfl⟩
      split
      · first | exact e _ | exact ⟨rfl, rfl⟩ | (cases fc <;> exact ⟨rfl, rfl⟩)
      · split
        · first | exact e _ | exact ⟨rfl, rfl⟩ | (cases fc <;> exact ⟨rfl, rfl⟩)
        · split
          · first | exact e _ | exact ⟨rfl, rfl⟩ | (cases fc <;> exact ⟨rfl, rfl⟩)
          · split
            · rename_i st2 e2 heq
              split at heq
              · split at heq
                · split at heq
                  · obtain ⟨rfl, -⟩ := Prod.mk.inj heq; first | exact e _ | exact ⟨rfl, rfl⟩ | (cases fc <;> exact ⟨rfl, rfl⟩)
                  · split at heq
                    · obtain ⟨rfl, -⟩ := Prod.mk.inj heq; first | exact e _ | exact ⟨rfl, rfl⟩ | (cases fc <;> exact ⟨rfl, rfl⟩)
                    · split at heq
                      · simp at heq
                      · obtain ⟨rfl, -⟩ := Prod.mk.inj heq; first | exact e _ | exact ⟨rfl, rfl⟩ | (cases fc <;> exact ⟨rfl, rfl⟩)
                · simp at heq
              · simp at heq
            · rename_i st2 lm heq
              have h2 : st2.yAll = st.yAll ∧ st2.xAll = st.xAll := by
                split at heq
                · split at heq
                  · split at heq
                    · simp at heq
                    · split at heq
                      · simp at heq
                      · split at heq
                        · obtain ⟨rfl, -⟩ := Prod.mk.inj heq; first | exact e _ | exact ⟨rfl, rfl⟩ | (cases fc <;> exact ⟨rfl, rfl⟩)
                        · simp at heq
                  · obtain ⟨rfl, -⟩ := Prod.mk.inj heq; first | exact e _ | exact ⟨rfl, rfl⟩ | (cases fc <;> exact ⟨rfl, rfl⟩)
                · obtain ⟨rfl, -⟩ := Prod.mk.inj heq; first | exact e _ | exact ⟨rfl, rfl⟩ | (cases fc <;> exact ⟨rfl, rfl⟩)
              split
              · exact h2
              · exact ⟨(haf _ _ _).1.trans h2.1, (haf _ _ _).2.trans h2.2⟩
  unfold append
  split
  · left; exact ⟨rfl, rfl⟩
  · dsimp only
    split
    · left; exact ⟨rfl, rfl⟩
    · split
      · left; exact ⟨rfl, rfl⟩
      · right
        split
        · exact ⟨rfl, rfl⟩
        · split
          · split
            · exact ⟨rfl, rfl⟩
            · split
              · exact ⟨rfl, rfl⟩
              · exact hmid _ _ _ _
          · exact hmid _ _ _ _

/-- **C70**, consequence: if the stored data contain a NaN or `+inf`, that stays so whatever is done
(even through failing calls), so the regressor never recovers. -/
theorem C70_never_recovers {cfg : Cfg P PX Θ K} (hu : cfg.useSvm = true)
    (hfit : ∀ q xs ys m s, cfg.fitY q xs ys = .ok (.aff m s) → 0 < s)
    (st : State P PX Θ K) (hb : ∃ y ∈ st.yAll, Bad y) (calls : List (Call P K)) (c : Call P K)
    (hfc : c.fitClf = true ∨ c.fit ≠ .no) :
    (append cfg (calls.foldl (fun st c => (append cfg st c).1) st) c).2 ≠ none := by
  have : ∃ y ∈ (calls.foldl (fun st c => (append cfg st c).1) st).yAll, Bad y := by
    induction calls generalizing st with
    | nil => exact hb
    | cons c' cs ih =>
      apply ih
      obtain ⟨y, hy, hyb⟩ := hb
      rcases append_yAll (cfg := cfg) st c' with ⟨h, _⟩ | ⟨h, _⟩
      · exact ⟨y, by rw [h]; exact hy, hyb⟩
      · exact ⟨y, by rw [h]; exact List.mem_append_left _ hy, hyb⟩
  obtain ⟨y, hy, hyb⟩ := this
  exact C70_poisoned hu hfc ⟨y, List.mem_append_left _ hy, hyb⟩ hfit

/-! ## C13: noise levels -/

/-- The per-point noise levels a call asks for. -/
def Call.noiseOf (c : Call P K) : List K :=
  match c.noise with
  | some (.array ks) => ks
  | some (.scalar k) => List.replicate c.ys.length k
  | none => []

/-- **C13** (partial): if the regressor was constructed with an (empty) array of noise levels, then after
every successful history the noise vector has one entry per stored point, in order.  (For the usual
scalar start see `C13_pointwise_noise_never_works`.) -/
theorem C13_aligned_partial {cfg : Cfg P PX Θ K} (px : PX) (py : PreY K) (calls : List (Call P K))
    {st : State P PX Θ K} (h : run cfg (State.init px py (.array [])) calls = some st) :
    st.noise = .array (calls.map Call.noiseOf).flatten ∧
      ((calls.map Call.noiseOf).flatten).length = st.yAll.length := by
  suffices H : ∀ (calls : List (Call P K)) (st0 : State P PX Θ K) (ks : List K), st0.noise = .array ks →
      ks.length = st0.yAll.length → run cfg st0 calls = some st →
      st.noise = .array (ks ++ (calls.map Call.noiseOf).flatten) ∧
      (ks ++ (calls.map Call.noiseOf).flatten).length = st.yAll.length by
    have := H calls _ [] rfl rfl h
    simpa using this
  clear h calls
  intro calls
  induction calls with
  | nil =>
    intro st0 ks hk hl h
    simp only [run, Option.some.injEq] at h; subst h
    simp [hk, hl]
  | cons c cs ih =>
    intro st0 ks hk hl h
    simp only [run] at h
    split at h
    · rename_i st1 heq
      obtain ⟨_, nz, noise, T, mask, hv, hn, _, hmid⟩ := append_ok heq
      obtain ⟨_, py', yAll', noise', svm, lastMask, _, _, _, _, _, hend⟩ := appendMid_ok hmid
      have hst1 : st1.noise = noise ∧ st1.yAll = st0.yAll ++ c.ys := by
        rcases hend with ⟨_, _, rfl⟩ | ⟨_, hf⟩
        · exact ⟨rfl, rfl⟩
        · obtain ⟨_, a2, _, _, a5, _⟩ := appendFit_ok hf
          exact ⟨a5, a2⟩
      have hnoise : noise = .array (ks ++ c.noiseOf) ∧ c.noiseOf.length = c.ys.length := by
        rw [hk] at hv hn
        unfold validateNoise at hv
        split_ifs at hv
        cases hc : c.noise with
        | none => rw [hc] at hv; simp at hv
        | some z =>
          rw [hc] at hv
          cases z with
          | scalar k =>
            simp only [Except.ok.injEq] at hv; subst hv
            simp only [updateNoise, Except.ok.injEq] at hn
            subst hn
            simp [Call.noiseOf, hc]
          | array zs =>
            simp only at hv
            split_ifs at hv with hz
            simp only [Except.ok.injEq] at hv; subst hv
            simp only [updateNoise, Except.ok.injEq] at hn
            subst hn
            simp only [Call.noiseOf, hc]
            exact ⟨trivial, not_not.1 hz⟩
      obtain ⟨h1, h2⟩ := ih st1 (ks ++ c.noiseOf) (by rw [hst1.1, hnoise.1])
        (by rw [hst1.2]; simp [hl, hnoise.2]) h
      rw [h1, ← h2]
      simp
    · simp at h

/-- State with too many noise entries. -/
def Misaligned (st : State P PX Θ K) : Prop := ∃ ks, st.noise = .array ks ∧ st.yAll.length < ks.length

/-- **C13**, negation for the code as it is: with the usual scalar noise level, a call passing per-point
noise levels (non-empty batch) can only succeed if *none* of its points enters the training set, and then
the noise vector has too many entries. -/
theorem C13_pointwise_noise_never_works {cfg : Cfg P PX Θ K} {st st' : State P PX Θ K} {c : Call P K}
    {s : K} {ks : List K} (hs : st.noise = .scalar s ∨ Misaligned st) (hk : c.noise = some (.array ks))
    (h : append cfg st c = (st', none)) : st'.nLastFinite = 0 ∧ Misaligned st' := by
  obtain ⟨_, nz, noise, T, mask, hv, hn, hcls, hmid⟩ := append_ok h
  obtain ⟨hml, py', yAll', noise', svm, lastMask, _, hy', hns, _, _, hend⟩ := appendMid_ok hmid
  have hks : ks.length = c.ys.length ∧ nz = some (.array ks) ∧ c.ys.length ≠ 0 := by
    rw [hk] at hv
    unfold validateNoise at hv
    split_ifs at hv with h0
    simp only at hv
    split_ifs at hv with hz
    cases hv
    exact ⟨not_not.1 hz, rfl, by simpa using h0⟩
  obtain ⟨hkl, rfl, hne⟩ := hks
  have hmap : ∀ (f : Ext K → Except Err (Ext K)) (l l' : List (Ext K)), mapE f l = .ok l' →
      l'.length = l.length := by
    intro f l
    induction l with
    | nil => intro l' h; simp [mapE] at h; subst h; rfl
    | cons a l ih =>
      intro l' h
      simp only [mapE] at h
      split at h
      · simp at h
      · split at h
        · simp at h
        · rename_i bs hbs
          cases h
          simp [ih bs hbs]
  have hnoise : ∃ zs, noise = .array zs ∧ (st.yAll ++ c.ys).length < zs.length := by
    rcases hs with hs | ⟨zs, hs, hlt⟩
    · rw [hs] at hn
      simp only [updateNoise, Except.ok.injEq] at hn
      exact ⟨_, hn.symm, by simp; omega⟩
    · rw [hs] at hn
      simp only [updateNoise, Except.ok.injEq] at hn
      exact ⟨_, hn.symm, by simp; omega⟩
  obtain ⟨zs, rfl, hlt⟩ := hnoise
  rcases hend with ⟨h0, _, rfl⟩ | ⟨_, hf⟩
  · exact ⟨h0, zs, rfl, hlt⟩
  · exfalso
    obtain ⟨_, _, _, _, _, _, _, _, _, _, _, _, a13, _⟩ := appendFit_ok hf
    have h1 := hmap _ _ _ hns
    simp only [noiseArr, List.length_map] at h1
    -- the mask has one entry per point
    have h2 : mask.length = (st.yAll ++ c.ys).length := by
      split_ifs at hcls
      · have := hcls.2
        unfold isFiniteAll at this
        split at this
        · simp at this
        · cases this; simp
      · rw [hcls.2]; simp
    omega

/-- **C13** (partial): a call refused because of its arguments changes nothing. (Failures after the
validation do change the data: `C13_not_atomic_counterexample`.) -/
theorem C13_validation_atomic_partial {cfg : Cfg P PX Θ K} (st : State P PX Θ K) (c : Call P K)
    (h : c.fit = .invalid ∨ (c.batch = none ∧ c.noise.isSome) ∨
      ∃ e, validateNoise st.noise c.noise c.ys.length = .error e) :
    (append cfg st c).1 = st ∧ (append cfg st c).2 ≠ none := by
  unfold append
  split
  · simp
  · rename_i hinv
    dsimp only
    rcases h with h | h | ⟨e, h⟩
    · exact absurd h hinv
    · rw [if_pos (by simp [h.1, h.2])]; simp
    · split
      · simp
      · rw [h]; simp

/-! ## C19: are the factors those of the stored data? -/

/-- The matrices used for prediction belong to the stored training set and hyperparameters. -/
def Fresh (st : State P PX Θ K) : Prop :=
  ∃ th, st.theta = some th ∧ st.factors = some ⟨st.xTrain', st.yTrain', st.noiseVar, th⟩

theorem append_fresh {cfg : Cfg P PX Θ K} {st st' : State P PX Θ K} {c : Call P K}
    (hsvm : cfg.useSvm = false → c.batch ≠ none)
    (hi : st.yTrain = [] ∨ Fresh st) (h : append cfg st c = (st', none)) : st'.yTrain = [] ∨ Fresh st' := by
  obtain ⟨_, nz, noise, T, mask, _, _, hcls, hmid⟩ := append_ok h
  obtain ⟨hml, py', yAll', noise', svm, lastMask, _, hy', hns, _, hlm, hend⟩ := appendMid_ok hmid
  rcases hend with ⟨_, _, rfl⟩ | ⟨hnot, hf⟩
  · exact hi
  · obtain ⟨_, a2, _, _, _, _, _, a8, _, a10, _, _, _, _, a15⟩ := appendFit_ok hf
    by_cases hn : 0 < lastMask.count true
    · right
      obtain ⟨th, h1, _, h3⟩ := a15 hn
      exact ⟨th, h1, h3⟩
    · left
      have hz : lastMask.count true = 0 := by omega
      have hbn : c.batch = none := by
        by_contra hb
        apply hnot
        refine ⟨hz, ?_⟩
        cases hb' : c.batch with
        | none => exact absurd hb' hb
        | some b => simp
      have hu : cfg.useSvm = true := by
        by_contra hu
        exact hsvm (by simpa using hu) hbn
      have hys : c.ys.length = 0 := by simp [Call.ys, hbn]
      rw [hlm, if_pos hu] at hz
      simp only [hys, lastSlice, if_true] at hz
      have hml2 : mask.length = (st.yAll ++ c.ys).length := by
        rw [if_pos hu] at hcls
        have := hcls.2
        unfold isFiniteAll at this
        split at this
        · simp at this
        · cases this; simp
      have := maskL_length mask (st.yAll ++ c.ys) hml2
      rw [hz] at this
      rw [a10]
      exact List.length_eq_zero_iff.1 this

/-- **C19** (partial): after any successful history of `append_to_data` calls, the factors belong to the
stored training set and hyperparameters (or nothing is stored yet).  Without classifier, calls
`append_to_data(None, None)` are excluded (`C19_option_C_stale_counterexample`), and so are direct calls
of `fit_gpr_hyperparameters` (`C19_option_B_stale`). -/
theorem C19_factors_fresh_partial {cfg : Cfg P PX Θ K} (px : PX) (py : PreY K) (s : Noise K)
    (calls : List (Call P K)) (hsvm : cfg.useSvm = false → ∀ c ∈ calls, c.batch ≠ none)
    {st : State P PX Θ K} (h : run cfg (State.init px py s) calls = some st) :
    st.yTrain = [] ∨ Fresh st := by
  suffices H : ∀ (calls : List (Call P K)) (st0 : State P PX Θ K), st0.yTrain = [] ∨ Fresh st0 →
      (cfg.useSvm = false → ∀ c ∈ calls, c.batch ≠ none) → run cfg st0 calls = some st →
      st.yTrain = [] ∨ Fresh st from H calls _ (.inl rfl) hsvm h
  clear h hsvm calls
  intro calls
  induction calls with
  | nil => intro st0 hi _ h; simp only [run, Option.some.injEq] at h; subst h; exact hi
  | cons c cs ih =>
    intro st0 hi hs h
    simp only [run] at h
    split at h
    · rename_i st1 heq
      exact ih st1 (append_fresh (fun hu => hs hu c (by simp)) hi heq)
        (fun hu c' hc' => hs hu c' (by simp [hc'])) h
    · simp at h

/-- **C19**, negation for the documented option B: calling `fit_gpr_hyperparameters` after an append that
already updated the model never refreshes the factors: they stay those of the old hyperparameters, and
are right only if the optimiser did not change them. -/
theorem C19_option_B_stale {cfg : Cfg P PX Θ K} {n : Option ℕ} {st st' : State P PX Θ K}
    (hf : Fresh st) (hn : st.newly = 0) (h : fitHyper cfg n st = (st', none)) :
    st'.factors = st.factors ∧ (Fresh st' ↔ st'.theta = st.theta) := by
  obtain ⟨th, h1, h2⟩ := hf
  have hs := fitHyper_same cfg n st
  rw [h] at hs
  have hfac : st'.factors = st.factors := by
    unfold fitHyper at h
    dsimp only at h
    have hum : ∀ st : State P PX Θ K, st.newly = 0 → updateModel cfg st = (st, none) := by
      intro st h; simp [updateModel, h]
    split at h
    · rw [h1] at h
      dsimp only at h
      rw [hum st hn] at h
      obtain ⟨rfl, -⟩ := Prod.mk.inj h; rfl
    · split at h
      · simp at h
      · rw [hum _ (by exact hn)] at h
        dsimp only at h
        obtain ⟨rfl, -⟩ := Prod.mk.inj h; rfl
  refine ⟨hfac, ?_⟩
  constructor
  · rintro ⟨th', h3, h4⟩
    rw [hfac, h2] at h4
    simp only [Option.some.injEq, Factors.mk.injEq] at h4
    rw [h3, h1, h4.2.2.2]
  · intro h3
    exact ⟨th, by rw [h3, h1], by rw [hfac, h2, hs.xTrain', hs.yTrain', hs.noiseVar]⟩

/-! ## C66: is the transformed training set up to date? -/

/-- The stored transformed training set is the current preprocessors' transform of the stored one. -/
def Consistent (cfg : Cfg P PX Θ K) (st : State P PX Θ K) : Prop :=
  st.xTrain' = st.xTrain.map (cfg.trX st.px) ∧ mapE st.py.transform st.yTrain = .ok st.yTrain'

/-- **C66** (partial): a successful call that adds at least one finite point leaves a consistent state,
whatever was done before. -/
theorem C66_consistent_after_finite_partial {cfg : Cfg P PX Θ K} {st st' : State P PX Θ K} {c : Call P K}
    (h : append cfg st c = (st', none)) (hn : 0 < st'.nLastFinite) : Consistent cfg st' := by
  obtain ⟨_, nz, noise, T, mask, _, _, hcls, hmid⟩ := append_ok h
  obtain ⟨hml, py', yAll', noise', svm, lastMask, _, hy', hns, _, hlm, hend⟩ := appendMid_ok hmid
  rcases hend with ⟨h0, _, rfl⟩ | ⟨_, hf⟩
  · simp only at h0 hn; omega
  · obtain ⟨_, _, a3, a4, _, _, _, _, _, _, a11, a12, _⟩ := appendFit_ok hf
    refine ⟨?_, ?_⟩
    · rw [a11, a3]
    · rw [a4]; exact a12

/-- Under the hypotheses of `C66_consistent_partial`, the preprocessors are moreover those fitted to the training set. -/
theorem consistent_fitted {cfg : Cfg P PX Θ K} (hc : CfgOk cfg)
    (hX : ∀ p p' xs ys, cfg.fitX p xs ys = cfg.fitX p' xs ys)
    (hY : ∀ q q' xs ys, cfg.fitY q xs ys = cfg.fitY q' xs ys)
    (px : PX) (py : PreY K) (s : Noise K) (calls : List (Call P K))
    (hg : cfg.useSvm = true → ∀ c ∈ calls, ∀ y ∈ c.ys, Good y)
    (hfc : ∀ c ∈ calls, c.fitClf = true ∨ c.fit ≠ .no)
    {st : State P PX Θ K} (h : run cfg (State.init px py s) calls = some st) : Consistent cfg st ∧ (st.yTrain = [] ∨ (∀ p, cfg.fitX p st.xTrain st.yTrain = st.px) ∧
      ∀ q, cfg.fitY q st.xTrain st.yTrain = .ok st.py) := by
  -- invariant: data partition, consistency, preprocessors fitted to the training set
  suffices H : ∀ (calls : List (Call P K)) (st0 : State P PX Θ K), Inv cfg st0 → Consistent cfg st0 →
      (st0.yTrain = [] ∨ (∀ p, cfg.fitX p st0.xTrain st0.yTrain = st0.px) ∧
        ∀ q, cfg.fitY q st0.xTrain st0.yTrain = .ok st0.py) →
      (cfg.useSvm = true → ∀ c ∈ calls, ∀ y ∈ c.ys, Good y) →
      (∀ c ∈ calls, c.fitClf = true ∨ c.fit ≠ .no) → run cfg st0 calls = some st →
      Consistent cfg st ∧ (st.yTrain = [] ∨ (∀ p, cfg.fitX p st.xTrain st.yTrain = st.px) ∧
      ∀ q, cfg.fitY q st.xTrain st.yTrain = .ok st.py) from
    H calls _ (inv_init cfg px py s) ⟨rfl, rfl⟩ (.inl rfl) hg hfc h
  clear h hfc hg calls
  intro calls
  induction calls with
  | nil => intro st0 _ hi hp _ _ h; simp only [run, Option.some.injEq] at h; subst h; exact ⟨hi, hp⟩
  | cons c cs ih =>
    intro st0 hi hcons hpre hg hfc h
    simp only [run] at h
    split at h
    · rename_i st1 heq
      have hi1 := inv_step hc (fun hu => hg hu c (by simp)) hi heq
      have hfc' : (c.fitClf || c.fit != .no) = true := by
        rcases hfc c (by simp) with h | h <;> simp [h]
      obtain ⟨_, nz, noise, T, mask, _, _, hcls, hmid⟩ := append_ok heq
      obtain ⟨hml, py', yAll', noise', svm, lastMask, hpy, hy', hns, _, hlm, hend⟩ := appendMid_ok hmid
      rw [if_pos hfc'] at hpy
      have hgg : cfg.useSvm = true → ∀ y ∈ st0.yAll ++ c.ys, Good y := by
        intro hu y hy
        rcases List.mem_append.1 hy with hy | hy
        · exact hi.2.1 hu y hy
        · exact hg hu c (by simp) y hy
      obtain ⟨hmlen, hms⟩ := mask_spec hc hgg hcls
      -- the finite set used for fitting is the new training set
      have hxy : maskL mask (st0.xAll ++ c.xs) = st1.xTrain ∧ maskL mask (st0.yAll ++ c.ys) = st1.yTrain := by
        classical
        have hl1 := hi1.1
        have e1 : st1.xAll = st0.xAll ++ c.xs ∧ st1.yAll = st0.yAll ++ c.ys := by
          obtain ⟨a, b, _⟩ := append_data hc hgg hi.1 heq
          exact ⟨a, b⟩
        rw [hi1.2.2.1, hi1.2.2.2]
        unfold specTrain
        rw [e1.1, e1.2] at hl1 ⊢
        rw [maskL_eq_filter (KeptBy cfg (st0.yAll ++ c.ys)) Prod.fst mask _ _ (by exact hml) hmlen hms,
          maskL_eq_filter (KeptBy cfg (st0.yAll ++ c.ys)) Prod.snd mask _ _ (by exact hml) hmlen hms,
          zip_map_fst _ _ hl1, zip_map_snd _ _ hl1]
        exact ⟨rfl, rfl⟩
      have hpy1 : cfg.fitY st0.py st1.xTrain st1.yTrain = .ok py' := by
        rw [← hxy.1, ← hxy.2]; exact hpy
      refine ih st1 hi1 ?_ ?_ (fun hu c' hc' => hg hu c' (by simp [hc']))
        (fun c' hc' => hfc c' (by simp [hc'])) h
      · rcases hend with ⟨h0, _, he⟩ | ⟨_, hf⟩
        · have ex : st1.xTrain = st0.xTrain := by rw [he]
          have ey : st1.yTrain = st0.yTrain := by rw [he]
          have ex' : st1.xTrain' = st0.xTrain' := by rw [he]
          have ey' : st1.yTrain' = st0.yTrain' := by rw [he]
          have epy : st1.py = py' := by rw [he]
          have epx : st1.px = cfg.fitX st0.px st1.xTrain st1.yTrain := by
            rw [← hxy.1, ← hxy.2, he]
            simp [hfc']
          rcases hpre with h00 | ⟨hpx, hpy0⟩
          · -- nothing stored
            have hxl : st0.xTrain = [] := by
              have : st0.xTrain.length = st0.yTrain.length := by
                rw [hi.2.2.1, hi.2.2.2]; simp
              rw [h00] at this
              exact List.length_eq_zero_iff.1 this
            have h3 := hcons.2
            have h4 := hcons.1
            rw [h00] at h3
            rw [hxl] at h4
            simp only [mapE, Except.ok.injEq] at h3
            refine ⟨?_, ?_⟩
            · rw [ex', ex, h4, hxl]; rfl
            · rw [ey, ey', h00, ← h3]; rfl
          · rw [ex, ey] at epx hpy1
            rw [hpy0] at hpy1
            cases hpy1
            refine ⟨?_, ?_⟩
            · rw [ex', ex, hcons.1, epx, hpx]
            · rw [ey, ey', epy]; exact hcons.2
        · obtain ⟨_, _, a3, a4, _, _, _, _, _, _, a11, a12, _⟩ := appendFit_ok hf
          exact ⟨by rw [a11, a3], by rw [a4]; exact a12⟩
      · right
        have epy : st1.py = py' ∧ st1.px = cfg.fitX st0.px st1.xTrain st1.yTrain := by
          rw [← hxy.1, ← hxy.2]
          rcases hend with ⟨_, _, rfl⟩ | ⟨_, hf⟩
          · simp [hfc']
          · obtain ⟨_, _, a3, a4, _⟩ := appendFit_ok hf
            rw [a3, a4]; simp [hfc']
        exact ⟨fun p => by rw [epy.2]; exact hX _ _ _ _, fun q => by rw [epy.1, ← hpy1]; exact hY _ _ _ _⟩
    · simp at h

/-- **C66** (partial): if every call refits the classifier (and hence the preprocessors) and fitting a
preprocessor only depends on the data it is fitted to, the state is consistent after every successful
history, batches without finite points included. Without these hypotheses it is false:
`C66_stale_counterexample`. -/
theorem C66_consistent_partial {cfg : Cfg P PX Θ K} (hc : CfgOk cfg)
    (hX : ∀ p p' xs ys, cfg.fitX p xs ys = cfg.fitX p' xs ys)
    (hY : ∀ q q' xs ys, cfg.fitY q xs ys = cfg.fitY q' xs ys)
    (px : PX) (py : PreY K) (s : Noise K) (calls : List (Call P K))
    (hg : cfg.useSvm = true → ∀ c ∈ calls, ∀ y ∈ c.ys, Good y)
    (hfc : ∀ c ∈ calls, c.fitClf = true ∨ c.fit ≠ .no)
    {st : State P PX Θ K} (h : run cfg (State.init px py s) calls = some st) : Consistent cfg st :=
  (consistent_fitted hc hX hY px py s calls hg hfc h).1

end GPry.Gpr
