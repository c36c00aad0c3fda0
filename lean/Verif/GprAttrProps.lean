import Verif.GprAttr
import Verif.GprFitProps
import Verif.GprEx

set_option linter.all false

/-!
# The trust region along histories (C109), attributes that summarise the training set (C110)
-/

namespace GPry.GprAttr

open GPry.Gpr (Err State Cfg Call append CfgOk Good KeptBy specTrain)
open GPry.Copy (Obj)

variable {K : Type} [Field K] [LinearOrder K] {P PX Θ B : Type}

theorem obj_step {cfg : Cfg P PX Θ K} {region : Option (List P → List (Ext K) → B)} {o o' : Obj P PX Θ K B} {c : Call P K}
    (h : o.append cfg region c = (o', none)) : append cfg o.st c = (o'.st, none) ∧
      ((o'.st.xTrain = o.st.xTrain ∧ o'.st.yTrain = o.st.yTrain ∧ o'.trust = o.trust) ∨
        ∀ f, region = some f → o'.trust = some (f o'.st.xTrain o'.st.yTrain)) ∧ (region = none → o'.trust = o.trust) := by
  unfold Obj.append at h
  rcases ha : append cfg o.st c with ⟨st, _ | e⟩
  · rw [ha] at h
    dsimp only at h
    split_ifs at h with h0
    · obtain ⟨rfl, -⟩ := Prod.mk.inj h
      refine ⟨rfl, .inl ?_, fun _ => rfl⟩
      obtain ⟨_, nz, noise, T, mask, _, _, hcls, hmid⟩ := Gpr.append_ok ha
      obtain ⟨hml, py', yAll', noise', svm, lastMask, _, hy', hns, _, hlm, hend⟩ := Gpr.appendMid_ok hmid
      rcases hend with ⟨_, _, rfl⟩ | ⟨hn, hf⟩
      · exact ⟨rfl, rfl, rfl⟩
      · refine absurd ⟨?_, h0.2⟩ hn
        have := (Gpr.appendFit_ok hf).2.2.2.2.2.2.2.1
        rw [← this]; exact h0.1
    · cases hr : region with
      | none =>
        rw [hr] at h
        obtain ⟨rfl, -⟩ := Prod.mk.inj h
        exact ⟨rfl, .inr (by intro f hf; cases hf), fun _ => rfl⟩
      | some f =>
        rw [hr] at h
        obtain ⟨rfl, -⟩ := Prod.mk.inj h
        exact ⟨rfl, .inr (by intro f hf; cases hf; rfl), by intro h; cases h⟩
  · rw [ha] at h
    simp at h

/-- **C109**: along every successful history of a new regressor, the trust bounds are always those computed from the current training set,
whether or not the last calls changed it; there are none as long as the training set is empty, nor if no trust region was asked for. -/
theorem C109_trust_current (cfg : Cfg P PX Θ K) (region : Option (List P → List (Ext K) → B)) (o : Obj P PX Θ K B) (calls : List (Call P K))
    (h0 : o.st.xTrain = [] ∧ o.st.yTrain = []) (ht : o.trust = none) {o' : Obj P PX Θ K B} (h : runObj cfg region o calls = some o') :
    (region = none → o'.trust = none) ∧
    ∀ f, region = some f → (o'.st.xTrain ≠ [] → o'.trust = some (f o'.st.xTrain o'.st.yTrain)) ∧
      (o'.trust = none ∨ o'.trust = some (f o'.st.xTrain o'.st.yTrain)) := by
  suffices H : ∀ (calls : List (Call P K)) (o : Obj P PX Θ K B), (region = none → o.trust = none) →
      (∀ f, region = some f → (o.trust = none ∧ o.st.xTrain = [] ∨ o.trust = some (f o.st.xTrain o.st.yTrain))) →
      runObj cfg region o calls = some o' → (region = none → o'.trust = none) ∧
      (∀ f, region = some f → (o'.trust = none ∧ o'.st.xTrain = [] ∨ o'.trust = some (f o'.st.xTrain o'.st.yTrain))) by
    obtain ⟨h1, h2⟩ := H calls o (fun _ => ht) (fun f _ => .inl ⟨ht, h0.1⟩) h
    refine ⟨h1, fun f hf => ?_⟩
    rcases h2 f hf with ⟨ha, hb⟩ | ha
    · exact ⟨fun hx => absurd hb hx, .inl ha⟩
    · exact ⟨fun _ => ha, .inr ha⟩
  intro calls
  induction calls with
  | nil =>
    intro o h1 h2 h
    cases h
    exact ⟨h1, h2⟩
  | cons c cs ih =>
    intro o h1 h2 h
    unfold runObj at h
    rcases ha : o.append cfg region c with ⟨o1, _ | e⟩
    · rw [ha] at h
      obtain ⟨_, hs, hn⟩ := obj_step ha
      refine ih o1 (fun hr => (hn hr).trans (h1 hr)) (fun f hf => ?_) h
      rcases hs with ⟨e1, e2, e3⟩ | hs
      · rw [e1, e2, e3]; exact h2 f hf
      · exact .inr (hs f hf)
    · rw [ha] at h
      cases h

/-- The history is that of the regressor alone. -/
theorem runObj_run (cfg : Cfg P PX Θ K) (region : Option (List P → List (Ext K) → B)) (calls : List (Call P K)) (o o' : Obj P PX Θ K B)
    (h : runObj cfg region o calls = some o') : Gpr.run cfg o.st calls = some o'.st := by
  induction calls generalizing o with
  | nil => cases h; rfl
  | cons c cs ih =>
    unfold runObj at h
    rcases ha : o.append cfg region c with ⟨o1, _ | e⟩
    · rw [ha] at h
      unfold Gpr.run
      rw [(obj_step ha).1]
      exact ih o1 h
    · rw [ha] at h; cases h

/-- **C109**: a forced refit (`append_to_data(None, None)` with fit) recomputes the trust bounds. -/
theorem C109_refit {cfg : Cfg P PX Θ K} {f : List P → List (Ext K) → B} {o o' : Obj P PX Θ K B} {c : Call P K}
    (hb : c.batch = none) (hf : c.fit ≠ .no) (h : o.append cfg (some f) c = (o', none)) : o'.trust = some (f o'.st.xTrain o'.st.yTrain) := by
  unfold Obj.append at h
  rcases ha : append cfg o.st c with ⟨st, _ | e⟩
  · rw [ha] at h
    have : ¬ (st.nLastFinite = 0 ∧ (c.batch.isNone && c.fit != .no) = false) := by
      rintro ⟨_, h2⟩
      rw [hb] at h2
      simp [hf] at h2
    dsimp only at h
    rw [if_neg this] at h
    obtain ⟨rfl, -⟩ := Prod.mk.inj h
    rfl
  · rw [ha] at h; simp at h

/-- **C109** holds for calls that return only: if the update of the model raises, the new points are in the training set and the trust bounds
are still the old ones. The kernel matrix is singular from four points on, the bounds are the first and last point. -/
theorem C109_failed_counterexample :
    let cfg : Cfg ℕ Unit ℕ ℚ := { Gpr.exCfg true with cholOk := fun xs _ _ => decide (xs.length < 3) }
    let region : List ℕ → List (Ext ℚ) → ℕ × ℕ := fun xs _ => (xs.headD 0, xs.getLastD 0)
    let o1 := (Obj.append cfg (some region) ⟨Gpr.ex0, 1, none⟩ Gpr.callA).1
    let r := o1.append cfg (some region) Gpr.callQuick
    o1.trust = some (1, 3) ∧ r.2 = some .linAlgError ∧ r.1.st.xTrain = [1, 3, 5] ∧ r.1.trust = some (1, 3) := by
  decide +kernel

/-- C109: a history with a batch without finite points, one without fit, and a refit. -/
example : (runObj (Gpr.exCfg true) (some fun xs (_ : List (Ext ℚ)) => (xs.headD 0, xs.getLastD 0)) ⟨Gpr.ex0, 1, none⟩
    [Gpr.callA, Gpr.callLow, Gpr.callQuick, Gpr.callRefit]).map (fun o => (o.st.xTrain, o.trust)) = some ([1, 3, 5], some (1, 5)) := by
  decide +kernel

/-! ## C110 -/

section
variable [IsStrictOrderedRing K]

/-- **C110**: after a successful history with some finite target, `y_max` is the largest of all targets given so far, and it is one of them. -/
theorem C110_y_max {cfg : Cfg P PX Θ K} (hc : CfgOk cfg) (px : PX) (py : Gpr.PreY K) (s : Gpr.Noise K) (calls : List (Call P K))
    (hg : ∀ c ∈ calls, ∀ y ∈ c.ys, Good y) {st : State P PX Θ K} (h : Gpr.run cfg (State.init px py s) calls = some st)
    (hfin : ∃ c ∈ calls, ∃ v, Ext.fin v ∈ c.ys) :
    ∃ m, yMax st = .ok (.fin m) ∧ (∃ c ∈ calls, Ext.fin m ∈ c.ys) ∧ ∀ c ∈ calls, ∀ v, Ext.fin v ∈ c.ys → v ≤ m := by
  obtain ⟨hx, hy, hl, htx, hty⟩ := Gpr.C10_training_partition hc px py s calls (fun _ => hg) h
  have hmem : ∀ z : Ext K, z ∈ st.yAll ↔ ∃ c ∈ calls, z ∈ c.ys := by
    intro z; rw [hy]; simp
  obtain ⟨m, hm, hmax⟩ := Gpr.exists_max_fin st.yAll (by
    obtain ⟨c, hcm, v, hv⟩ := hfin
    exact ⟨v, (hmem _).2 ⟨c, hcm, hv⟩⟩)
  have hsub : ∀ z ∈ st.yTrain, z ∈ st.yAll := by
    intro z hz
    rw [hty] at hz
    obtain ⟨p, hp, rfl⟩ := List.mem_map.1 hz
    exact (List.of_mem_zip (List.mem_filter.1 hp).1).2
  have hin : Ext.fin m ∈ st.yTrain := by
    rw [hty]
    obtain ⟨i, hi, he⟩ := List.mem_iff_getElem.1 hm
    refine List.mem_map.2 ⟨(st.xAll[i]'(by omega), Ext.fin m), List.mem_filter.2 ⟨?_, ?_⟩, rfl⟩
    · rw [List.mem_iff_getElem]
      refine ⟨i, by simp; omega, ?_⟩
      simp [he]
    · simp only [decide_eq_true_eq]
      intro hu
      exact Gpr.kept_max hc.1 _ _ hmax
  obtain ⟨M, hM, hMm, hMup⟩ := Gpr.npMax_good st.yTrain (fun y hy' => by
    obtain ⟨c, hcm, hyc⟩ := (hmem _).1 (hsub _ hy')
    exact hg c hcm _ hyc) (List.ne_nil_of_mem hin)
  have : M = .fin m := by
    have h1 := hMup _ hin
    obtain ⟨c, hcm, hyc⟩ := (hmem _).1 (hsub _ hMm)
    rcases hg c hcm _ hyc with rfl | ⟨v, rfl⟩
    · simp [Ext.le] at h1
    · have h2 := hmax v (hsub _ hMm)
      have h1 : m ≤ v := by simpa [Ext.le] using h1
      rw [le_antisymm h2 h1]
  refine ⟨m, by unfold yMax; rw [hM, this], (hmem _).1 hm, fun c hcm v hv => hmax v ((hmem _).2 ⟨c, hcm, hv⟩)⟩

open Classical in
/-- **C110**: `n` (`n_finite`) is the number of targets that are classified as finite, and of points in the training set. -/
theorem C110_n {cfg : Cfg P PX Θ K} (hc : CfgOk cfg) (px : PX) (py : Gpr.PreY K) (s : Gpr.Noise K) (calls : List (Call P K))
    (hg : cfg.useSvm = true → ∀ c ∈ calls, ∀ y ∈ c.ys, Good y) {st : State P PX Θ K} (h : Gpr.run cfg (State.init px py s) calls = some st) :
    n st = ((calls.map Call.ys).flatten.filter fun y => decide (KeptBy cfg (calls.map Call.ys).flatten y)).length ∧ n st = st.xTrain.length := by
  obtain ⟨hx, hy, hl, htx, hty⟩ := Gpr.C10_training_partition hc px py s calls hg h
  unfold n
  refine ⟨?_, by rw [htx, hty]; simp⟩
  rw [hty, ← hy]
  unfold specTrain
  have key : ∀ (xs : List P) (ys : List (Ext K)) (Q : Ext K → Bool), xs.length = ys.length →
      (((xs.zip ys).filter fun p => Q p.2).map Prod.snd) = ys.filter Q := by
    intro xs
    induction xs with
    | nil => intro ys Q h; cases ys with
      | nil => rfl
      | cons _ _ => simp at h
    | cons x xs ih => intro ys Q h; cases ys with
      | nil => simp at h
      | cons y ys =>
        simp only [List.length_cons, Nat.add_right_cancel_iff] at h
        simp only [List.zip_cons_cons, List.filter_cons]
        cases Q y <;> simp [ih ys Q h]
  rw [key _ _ (fun y => decide (KeptBy cfg st.yAll y)) hl]

/-- **C110**: after a call that refits the classifier, with at least one finite target, the table has one row per point given so far, in order,
with its coordinates, its target, and whether it is in the training set. -/
theorem C110_table_partial {cfg : Cfg P PX Θ K} (hc : CfgOk cfg) {st st' : State P PX Θ K} {c : Call P K} (hu : cfg.useSvm = true)
    (hg : ∀ y ∈ st.yAll ++ c.ys, Good y) (hfin : ∃ v, Ext.fin v ∈ st.yAll ++ c.ys) (hl : st.xAll.length = st.yAll.length)
    (hlc : c.xs.length = c.ys.length)
    (hrefit : (c.fitClf || c.fit != .no) = true) (h : append cfg st c = (st', none)) (m s : K) (hs : 0 < s) (hpy : st'.py = .aff m s) :
    ∃ t, rows cfg true st' = .ok t ∧ t.map Prod.fst = st.xAll ++ c.xs ∧ t.map (fun r => r.2.1) = st.yAll ++ c.ys ∧
      ∀ r ∈ t, r.2.2 = true ↔ KeptBy cfg (st.yAll ++ c.ys) r.2.1 := by
  obtain ⟨hxa, hya, _⟩ := Gpr.append_data hc (fun _ => hg) hl h
  obtain ⟨mask, hm, hml, hspec⟩ := GprFit.C102_is_finite_partial hc hu hg hfin hl hrefit h m s hs hpy
  have hlen : st'.xAll.length = st'.yAll.length := by rw [hxa, hya]; simp [hl, hlc]
  refine ⟨st'.xAll.zip (st'.yAll.zip mask), ?_, ?_, ?_, ?_⟩
  · unfold rows
    rw [hu, hm]
    dsimp only
    rw [if_pos ⟨hlen, hml⟩]
  · rw [List.map_fst_zip (by simp; omega), hxa]
  · have : (fun r : P × Ext K × Bool => r.2.1) = Prod.fst ∘ Prod.snd := rfl
    rw [this, ← List.map_map, List.map_snd_zip (by simp; omega), List.map_fst_zip (by omega), hya]
  · intro r hr
    have h2 := (List.of_mem_zip (a := r.1) (b := r.2) hr).2
    obtain ⟨i, hi, he⟩ := List.mem_iff_getElem.1 h2
    rw [List.length_zip] at hi
    have := hspec i (by omega) (by omega)
    rw [List.getElem_zip] at he
    rw [← he, ← hya]
    exact this

/-- **C110** is false before the first finite point: `y_max` is documented to be minus infinity then (the value given if there is no training
set), but raises `ValueError`. Hence the `LogExp` acquisition functions do so too. -/
theorem C110_empty_counterexample (px : PX) (py : Gpr.PreY K) (s : Gpr.Noise K) :
    yMax (State.init px py s : State P PX Θ K) = .error .valueError ∧ n (State.init px py s : State P PX Θ K) = 0 :=
  ⟨rfl, rfl⟩

end

/-- C110: the history of C10. -/
example : ((Gpr.run (Gpr.exCfg true) Gpr.ex0 [Gpr.callA, Gpr.callLow, Gpr.callRefit]).map fun st => (n st, (yMax st).toOption)) =
      some (2, some (.fin 2)) ∧
    ((Gpr.run (Gpr.exCfg true) Gpr.ex0 [Gpr.callA, Gpr.callLow, Gpr.callRefit]).bind fun st => (rows (Gpr.exCfg true) true st).toOption) =
      some [(1, .fin 1, true), (2, .negInf, false), (3, .fin 2, true), (4, .fin (-50), false)] := by
  decide +kernel

/-- C110: the table is wrong after a call that does not refit the classifier with a new maximum: the point at -17 is no longer in the training
set. -/
theorem C110_stale_counterexample :
    let h : List (Call ℕ ℚ) := [{ batch := some ([1, 2, 3], [.fin 1, .fin 2, .fin (-17)]) }, { Gpr.callQuick with batch := some ([5], [.fin 10]) }]
    ((Gpr.run (Gpr.exCfg true) Gpr.ex0 h).map fun st => st.xTrain) = some [1, 2, 5] ∧
    ((Gpr.run (Gpr.exCfg true) Gpr.ex0 h).bind fun st => (rows (Gpr.exCfg true) true st).toOption) =
      some [(1, .fin 1, true), (2, .fin 2, true), (3, .fin (-17), true), (5, .fin 10, true)] := by
  decide +kernel

/-- Region spanned by the first and last training points. -/
def exRegion (xs : List ℕ) (_ : List (Ext ℚ)) : ℕ × ℕ := (xs.headD 0, xs.getLastD 0)

example : ∃ o', runObj (Gpr.exCfg true) (some exRegion) ⟨Gpr.ex0, 1, none⟩ Gpr.exCalls = some o' ∧
    (o'.trust = none ∨ o'.trust = some (exRegion o'.st.xTrain o'.st.yTrain)) := by
  obtain ⟨o', h⟩ : ∃ o', runObj (Gpr.exCfg true) (some exRegion) ⟨Gpr.ex0, 1, none⟩ Gpr.exCalls = some o' :=
    Option.isSome_iff_exists.1 (by decide +kernel)
  exact ⟨o', h, ((C109_trust_current _ _ _ _ ⟨rfl, rfl⟩ rfl h).2 _ rfl).2⟩

example : ((⟨Gpr.exSt, 1, none⟩ : Obj ℕ Unit ℕ ℚ (ℕ × ℕ)).append (Gpr.exCfg true) (some exRegion) Gpr.callRefit).1.trust = some (1, 3) := by
  rw [C109_refit (f := exRegion) (c := Gpr.callRefit) rfl (by decide) (Prod.ext rfl (by decide +kernel))]
  decide +kernel

example : ∃ st m, Gpr.run (Gpr.exCfg true) (State.init () (.aff 0 1) (.scalar 1)) Gpr.exCalls = some st ∧ yMax st = .ok (.fin m) ∧ 3 ≤ m := by
  obtain ⟨st, h⟩ := Gpr.exRun
  obtain ⟨m, h1, -, h3⟩ := C110_y_max (Gpr.exCfg_ok true) () (.aff 0 1) (.scalar 1) Gpr.exCalls Gpr.exCalls_good h
    ⟨Gpr.callA, by simp [Gpr.exCalls], 1, by decide +kernel⟩
  exact ⟨st, m, h, h1, h3 Gpr.callQuick (by simp [Gpr.exCalls]) 3 (by decide +kernel)⟩

example : ∃ st, Gpr.run (Gpr.exCfg true) (State.init () (.aff 0 1) (.scalar 1)) Gpr.exCalls = some st ∧ n st = st.xTrain.length := by
  obtain ⟨st, h⟩ := Gpr.exRun
  exact ⟨st, h, (C110_n (Gpr.exCfg_ok true) () (.aff 0 1) (.scalar 1) Gpr.exCalls (fun _ => Gpr.exCalls_good) h).2⟩

example : ∃ t, rows (Gpr.exCfg true) true Gpr.exSt = .ok t ∧ t.map Prod.fst = [1, 2, 3] :=
  let ⟨t, h, hx, _⟩ := C110_table_partial (Gpr.exCfg_ok true) (st := Gpr.ex0) (c := Gpr.callA) rfl
    (fun y hy => Gpr.exA_good y (by simpa [Gpr.ex0, State.init] using hy)) ⟨1, by decide +kernel⟩ rfl rfl rfl Gpr.exSt_ok 0 1 (by norm_num) (by decide +kernel)
  ⟨t, h, hx⟩

end GPry.GprAttr
