import Verif.PredictProps

set_option linter.all false

namespace GPry.Predict

open Gp Kernels Matrix

variable {d n : ℕ}

/-! ## C67: gradients -/

theorem hasPartial_sum' {ι : Type*} [Fintype ι] {f : ι → (Fin d → ℝ) → ℝ} {x : Fin d → ℝ} {j : Fin d} {g : ι → ℝ}
    (h : ∀ i, HasPartial (f i) x j (g i)) : HasPartial (fun x => ∑ i, f i x) x j (∑ i, g i) := by
  unfold HasPartial at *
  exact HasDerivAt.fun_sum fun i _ => h i

theorem mean_hasPartial {chol : Matrix (Fin n) (Fin n) ℝ → Matrix (Fin n) (Fin n) ℝ} {k : (Fin d → ℝ) → (Fin d → ℝ) → ℝ}
    {s mu : ℝ} {D : Data (Fin n) (Fin d → ℝ)} {g : Fin n → Fin d → ℝ} {x : Fin d → ℝ} {j : Fin d}
    (hg : ∀ i, HasPartial (fun z => k z (D.X i)) x j (g i j)) :
    HasPartial (fun z => D.mean chol k z * s + mu) x j (meanGrad chol k s D g j) := by
  have h1 : HasPartial (fun z => D.mean chol k z) x j (∑ i, g i j * (D.update chol k).alpha i) := by
    refine hasPartial_sum' (ι := Fin n) fun i => ?_
    have := (hg i).mul (hasPartial_const ((D.update chol k).alpha i) x j)
    refine this.congr_deriv ?_
    ring
  have h2 := (h1.mul (hasPartial_const s x j)).add (hasPartial_const mu x j)
  refine h2.congr_deriv ?_
  unfold meanGrad
  ring

theorem rawVar_hasPartial {chol : Matrix (Fin n) (Fin n) ℝ → Matrix (Fin n) (Fin n) ℝ} {k : (Fin d → ℝ) → (Fin d → ℝ) → ℝ}
    {D : Data (Fin n) (Fin d → ℝ)} {g : Fin n → Fin d → ℝ} {x : Fin d → ℝ} {j : Fin d}
    (hg : ∀ i, HasPartial (fun z => k z (D.X i)) x j (g i j)) (hk : ∀ z, k z z = k x x) :
    HasPartial (fun z => D.rawVar chol k z) x j
      (-2 * (D.kTrans k x ⬝ᵥ (((D.update chol k).Vᵀ * (D.update chol k).V) *ᵥ fun i => g i j))) := by
  obtain ⟨V, hV⟩ : ∃ V, V = (D.update chol k).V := ⟨_, rfl⟩
  have e : (fun z => D.rawVar chol k z) = fun z => k x x + ∑ l, -((V *ᵥ D.kTrans k z) l * (V *ᵥ D.kTrans k z) l) := by
    funext z
    unfold Data.rawVar
    dsimp only
    rw [← hV, hk z, Finset.sum_neg_distrib]
    rfl
  rw [e, ← hV]
  have h1 : ∀ l, HasPartial (fun z => (V *ᵥ D.kTrans k z) l) x j ((V *ᵥ fun i => g i j) l) := by
    intro l
    refine hasPartial_sum' (ι := Fin n) fun i => ?_
    have := (hasPartial_const (V l i) x j).mul (hg i)
    refine this.congr_deriv ?_
    ring
  have h2 := (hasPartial_const (k x x) x j).add (hasPartial_sum' fun l => ((hasPartial_const (-1) x j).mul ((h1 l).mul (h1 l))))
  have h3 : (fun z => k x x + ∑ l, -1 * ((V *ᵥ D.kTrans k z) l * (V *ᵥ D.kTrans k z) l)) =
      fun z => k x x + ∑ l, -((V *ᵥ D.kTrans k z) l * (V *ᵥ D.kTrans k z) l) := by
    funext z; simp
  rw [h3] at h2
  refine h2.congr_deriv ?_
  rw [← mulVec_mulVec, dotProduct_mulVec, vecMul_transpose]
  unfold dotProduct
  rw [Finset.mul_sum, zero_add]
  apply Finset.sum_congr rfl
  intro l _
  ring

theorem HasPartial.congr_pos {f f' : (Fin d → ℝ) → ℝ} {x : Fin d → ℝ} {j : Fin d} {g : ℝ} {v : (Fin d → ℝ) → ℝ} {v' : ℝ}
    (h : HasPartial f x j g) (hv : HasPartial v x j v') (hpos : 0 < v x) (he : ∀ z, 0 < v z → f' z = f z) :
    HasPartial f' x j g := by
  unfold HasPartial at *
  have hc : ContinuousAt (fun t => v (Function.update x j t)) (x j) := hv.continuousAt
  have hev : ∀ᶠ t in nhds (x j), 0 < v (Function.update x j t) := by
    apply hc.eventually
    apply lt_mem_nhds
    simpa using hpos
  exact h.congr_of_eventuallyEq (hev.mono fun t ht => he _ ht)

theorem std_hasPartial {chol : Matrix (Fin n) (Fin n) ℝ → Matrix (Fin n) (Fin n) ℝ} {k : (Fin d → ℝ) → (Fin d → ℝ) → ℝ}
    {s : ℝ} (hs : s ≠ 0) {D : Data (Fin n) (Fin d → ℝ)} {g : Fin n → Fin d → ℝ} {x : Fin d → ℝ} {j : Fin d}
    (hg : ∀ i, HasPartial (fun z => k z (D.X i)) x j (g i j)) (hk : ∀ z, k z z = k x x)
    (hpos : 1e-8 < |D.std chol k x * s|) :
    ∃ gtrue, HasPartial (fun z => D.std chol k z * s) x j gtrue ∧ stdGrad chol k s D g x j = s * gtrue := by
  have hv := rawVar_hasPartial (chol := chol) hg hk
  have hv0 : 0 < D.rawVar chol k x := by
    by_contra hcon
    have : D.std chol k x = 0 := by
      unfold Data.std
      dsimp only
      split_ifs with h
      · simp
      · have : D.rawVar chol k x = 0 := le_antisymm (not_lt.1 hcon) (not_lt.1 h)
        rw [this]; simp
    rw [this] at hpos
    norm_num at hpos
  have hstd : ∀ z, 0 < D.rawVar chol k z → D.std chol k z = Real.sqrt (D.rawVar chol k z) := by
    intro z hz
    unfold Data.std
    dsimp only
    rw [if_neg (not_lt.2 hz.le)]
  have h1 := hv.comp (Real.hasDerivAt_sqrt hv0.ne')
  have h2 := HasPartial.congr_pos h1 hv hv0 (f' := fun z => D.std chol k z) hstd
  have h3 := h2.mul (hasPartial_const s x j)
  refine ⟨_, h3, ?_⟩
  unfold stdGrad
  rw [if_neg (not_le.2 hpos), hstd x hv0]
  have : Real.sqrt (D.rawVar chol k x) ≠ 0 := (Real.sqrt_pos.2 hv0).ne'
  field_simp
  ring

/-- Kernels whose value at equal points is the same everywhere: without `DotProduct`. -/
def KStat : KExpr d → Prop
  | .dot _ => False
  | .sum a b | .prod a b => KStat a ∧ KStat b
  | .pow a _ => KStat a
  | _ => True

theorem KStat.eval_diag (general : ℕ → ℝ → ℝ) : ∀ (e : KExpr d), KStat e → ∀ x z, e.eval general x x = e.eval general z z
  | .rbf ls, _, x, z => by simp [KExpr.eval, sqDist]
  | .matern nu ls, _, x, z => by simp [KExpr.eval, sqDist]
  | .rq ls a, _, x, z => by simp [KExpr.eval, sqDist]
  | .expSine ls p, _, x, z => by simp [KExpr.eval, sqDist]
  | .const c, _, x, z => rfl
  | .white, _, x, z => rfl
  | .dot s, h, _, _ => h.elim
  | .sum a b, h, x, z => by
    rw [KExpr.eval, KExpr.eval, KStat.eval_diag general a h.1 x z, KStat.eval_diag general b h.2 x z]
  | .prod a b, h, x, z => by
    rw [KExpr.eval, KExpr.eval, KStat.eval_diag general a h.1 x z, KStat.eval_diag general b h.2 x z]
  | .pow a p, h, x, z => by
    rw [KExpr.eval, KExpr.eval, KStat.eval_diag general a h x z]

/-- The gradients that are returned where the classifier says finite. -/
theorem predictGrad_ok {st : St d n} {general : ℕ → ℝ → ℝ} {e : KExpr d} {x : Fin d → ℝ} {gm : Fin d → Ext ℝ}
    {gs : Fin d → ℝ} (h : st.predictGrad general e x = .ok (gm, gs)) (hfin : ¬ st.Infinite x) :
    ∃ g : Fin n → Fin d → ℝ, (∀ i, e.gradX general 1 (st.M.trX x) ((st.M.data st.R).X i) = .ok (g i)) ∧
      gm = (fun j => .fin (meanGrad st.chol st.M.k st.M.s (st.M.data st.R) g j)) ∧
      gs = stdGrad st.chol st.M.k st.M.s (st.M.data st.R) g (st.M.trX x) := by
  have main : ∀ r : Except Err ((Fin d → Ext ℝ) × (Fin d → ℝ)), r = .ok (gm, gs) →
      (match (List.finRange n).find? fun i => match e.gradX general 1 (st.M.trX x) ((st.M.data st.R).X i) with
          | .error _ => true | .ok _ => false with
        | some i => match e.gradX general 1 (st.M.trX x) ((st.M.data st.R).X i) with
          | .error err => .error (.kernel err)
          | .ok _ => .error .valueError
        | none => .ok (fun j => .fin (meanGrad st.chol st.M.k st.M.s (st.M.data st.R)
            (fun i => match e.gradX general 1 (st.M.trX x) ((st.M.data st.R).X i) with | .ok v => v | .error _ => 0) j),
            stdGrad st.chol st.M.k st.M.s (st.M.data st.R)
            (fun i => match e.gradX general 1 (st.M.trX x) ((st.M.data st.R).X i) with | .ok v => v | .error _ => 0)
            (st.M.trX x))) = r →
      ∃ g : Fin n → Fin d → ℝ, (∀ i, e.gradX general 1 (st.M.trX x) ((st.M.data st.R).X i) = .ok (g i)) ∧
      gm = (fun j => .fin (meanGrad st.chol st.M.k st.M.s (st.M.data st.R) g j)) ∧
      gs = stdGrad st.chol st.M.k st.M.s (st.M.data st.R) g (st.M.trX x) := by
    rintro r rfl hr
    split at hr
    · split at hr <;> simp at hr
    · rename_i hnone
      rw [Except.ok.injEq, Prod.mk.injEq] at hr
      refine ⟨_, ?_, hr.1.symm, hr.2.symm⟩
      intro i
      have := List.find?_eq_none.1 hnone i (List.mem_finRange i)
      cases hg : e.gradX general 1 (st.M.trX x) ((st.M.data st.R).X i) with
      | error err => rw [hg] at this; simp at this
      | ok v => rfl
  unfold St.predictGrad at h
  dsimp only at h
  cases hsvm : st.svm with
  | none =>
    rw [hsvm] at h
    exact main _ h rfl
  | some c =>
    rw [hsvm] at h
    simp only at h
    cases hp : c.predict [st.M.trX x] with
    | error err => rw [hp] at h; simp at h
    | ok finite =>
      rw [hp] at h
      simp only at h
      have hfl := (Svm.predict_eq hp).2
      rw [infinite_iff hsvm] at hfin
      rw [if_neg (by rw [hfl]; simpa using hfin)] at h
      exact main _ h rfl

/-- **C67**, partial: the gradient of the mean is the derivative of the mean of the Gaussian process with respect to the
transformed position, in the units of the target. It is the derivative of the clipped mean where the mean is below the
ceiling (elsewhere it is not, see the counterexample). -/
theorem C67_mean_partial (st : St d n) (general : ℕ → ℝ → ℝ) (e : KExpr d) (hk : st.M.k = e.eval general) (x : Fin d → ℝ)
    (gm : Fin d → Ext ℝ) (gs : Fin d → ℝ) (h : st.predictGrad general e x = .ok (gm, gs)) (hfin : ¬ st.Infinite x)
    (hreg : ∀ i, e.Regular general (st.M.trX x) (st.M.trX (st.R.X i))) (j : Fin d) :
    ∃ v, gm j = .fin v ∧
      HasPartial (fun z => (st.M.data st.R).mean st.chol st.M.k z * st.M.s + st.M.mu) (st.M.trX x) j v ∧
      ∀ t, st.M.mean st.chol st.R x < t →
        HasPartial (fun z => min ((st.M.data st.R).mean st.chol st.M.k z * st.M.s + st.M.mu) t) (st.M.trX x) j v := by
  obtain ⟨g, hg, rfl, rfl⟩ := predictGrad_ok h hfin
  have hp := mean_hasPartial (chol := st.chol) (k := st.M.k) (s := st.M.s) (mu := st.M.mu) (D := st.M.data st.R) (g := g)
    (x := st.M.trX x) (j := j) fun i => by
      rw [hk]; exact C53_gradient_partial general e 1 _ _ (g i) (hreg i) (hg i) j
  refine ⟨_, rfl, hp, fun t ht => ?_⟩
  refine HasPartial.congr_pos hp ((hasPartial_const t (st.M.trX x) j).add ((hasPartial_const (-1) _ j).mul hp))
    (v := fun z => t + -1 * ((st.M.data st.R).mean st.chol st.M.k z * st.M.s + st.M.mu)) ?_ ?_
  · have : st.M.mean st.chol st.R x = (st.M.data st.R).mean st.chol st.M.k (st.M.trX x) * st.M.s + st.M.mu := rfl
    rw [this] at ht
    linarith
  · intro z hz
    exact min_eq_left (by linarith)

/-- **C67**, partial: the gradient of the standard deviation is the derivative times the scale of the target once more, for
kernels without `DotProduct`, where the standard deviation is not close to zero; so it is the derivative if targets are not
normalised. -/
theorem C67_std_partial (st : St d n) (general : ℕ → ℝ → ℝ) (e : KExpr d) (hk : st.M.k = e.eval general) (hst : KStat e)
    (hs : st.M.s ≠ 0) (x : Fin d → ℝ) (gm : Fin d → Ext ℝ) (gs : Fin d → ℝ) (h : st.predictGrad general e x = .ok (gm, gs))
    (hfin : ¬ st.Infinite x) (hreg : ∀ i, e.Regular general (st.M.trX x) (st.M.trX (st.R.X i)))
    (hpos : 1e-8 < |st.M.std st.chol st.R x|) (j : Fin d) :
    ∃ g, HasPartial (fun z => (st.M.data st.R).std st.chol st.M.k z * st.M.s) (st.M.trX x) j g ∧ gs j = st.M.s * g ∧
      (st.M.s = 1 → gs j = g) := by
  obtain ⟨g, hg, rfl, rfl⟩ := predictGrad_ok h hfin
  obtain ⟨gt, h1, h2⟩ := std_hasPartial (chol := st.chol) (k := st.M.k) hs (D := st.M.data st.R) (g := g)
    (x := st.M.trX x) (j := j) (fun i => by
      rw [hk]; exact C53_gradient_partial general e 1 _ _ (g i) (hreg i) (hg i) j)
    (fun z => by rw [hk]; exact KStat.eval_diag general e hst z _) hpos
  exact ⟨gt, h1, h2, fun h => by rw [h2, h, one_mul]⟩

/-! ## Counterexamples: one dimension, one training point -/

/-- `chol` for one by one matrices -/
noncomputable def chol1 (K : Matrix (Fin 1) (Fin 1) ℝ) : Matrix (Fin 1) (Fin 1) ℝ := Matrix.of fun _ _ => Real.sqrt (K 0 0)

theorem chol1_isFactor {K : Matrix (Fin 1) (Fin 1) ℝ} (h : 0 < K 0 0) : IsFactor K (chol1 K) := by
  constructor
  · rw [isUnit_iff_isUnit_det, det_fin_one, isUnit_iff_ne_zero]
    exact (Real.sqrt_pos.2 h).ne'
  · ext i j
    fin_cases i; fin_cases j
    simp [chol1, Matrix.mul_apply, Real.mul_self_sqrt h.le]

/-- RBF kernel, training point 0 with noise level 2 where the scale of the targets is 2. -/
noncomputable def exStd : St 1 1 :=
  { fitted := true, prior := fun _ => 1, M := ⟨(KExpr.rbf fun _ => 1).eval (fun _ _ => 0), id, 0, 2⟩, chol := chol1,
    R := ⟨fun _ _ => 0, fun _ => 0, fun _ => 2⟩, svm := none, trust := none, clip := some 1, minf := .negInf }

theorem exStd_kmat : (exStd.M.data exStd.R).kmat exStd.M.k 0 0 = 2 := by
  simp [Data.kmat, exStd, Model.data, KExpr.eval, sqDist]; norm_num

theorem exStd_V : ((exStd.M.data exStd.R).update exStd.chol exStd.M.k).V = Matrix.of fun _ _ => (Real.sqrt 2)⁻¹ := by
  show (chol1 _)⁻¹ = _
  apply inv_eq_left_inv
  ext i j
  fin_cases i; fin_cases j
  have h2 : Real.sqrt 2 ≠ 0 := by positivity
  simp only [Fin.zero_eta, Fin.isValue, Matrix.mul_apply, Finset.univ_unique, Fin.default_eq_zero, of_apply, Finset.sum_singleton, chol1, one_apply_eq]
  rw [exStd_kmat]
  exact inv_mul_cancel₀ h2

theorem exStd_rawVar : (exStd.M.data exStd.R).rawVar exStd.chol exStd.M.k (fun _ => 1) = 1 - Real.exp (-1) / 2 := by
  unfold Data.rawVar
  dsimp only
  rw [exStd_V]
  have hk : (exStd.M.data exStd.R).kTrans exStd.M.k (fun _ => 1) 0 = Real.exp (-0.5) := by
    simp [Data.kTrans, exStd, Model.data, KExpr.eval, sqDist]
  have hkk : exStd.M.k (fun _ => 1) (fun _ => 1) = 1 := by simp [exStd, KExpr.eval, sqDist]
  have he : Real.exp (-0.5) * Real.exp (-0.5) = Real.exp (-1) := by rw [← Real.exp_add]; norm_num
  rw [hkk]
  simp only [dotProduct, mulVec, Finset.univ_unique, Fin.default_eq_zero, Finset.sum_singleton, of_apply, hk]
  have h2 : Real.sqrt 2 * Real.sqrt 2 = 2 := Real.mul_self_sqrt (by norm_num)
  have : (Real.sqrt 2)⁻¹ * Real.exp (-0.5) * ((Real.sqrt 2)⁻¹ * Real.exp (-0.5)) =
      (Real.sqrt 2 * Real.sqrt 2)⁻¹ * (Real.exp (-0.5) * Real.exp (-0.5)) := by rw [mul_inv]; ring
  rw [this, h2, he]
  ring

/-- **C67** is false of the standard deviation if the targets are normalised: with scale 2, in the example, the gradient
returned is twice the derivative, which is not zero. -/
theorem C67_std_counterexample : ∃ gm gs g, exStd.predictGrad (fun _ _ => 0) (.rbf fun _ => 1) (fun _ => 1) = .ok (gm, gs) ∧
    HasPartial (fun z => (exStd.M.data exStd.R).std exStd.chol exStd.M.k z * exStd.M.s) (fun _ => 1) 0 g ∧
    gs 0 ≠ g := by
  obtain ⟨gm, gs, hg⟩ : ∃ gm gs, exStd.predictGrad (fun _ _ => 0) (.rbf fun _ => 1) (fun _ => 1) = .ok (gm, gs) := by
    unfold St.predictGrad
    simp only [exStd, KExpr.gradX]
    split
    · rename_i i hi
      have := List.find?_some hi
      simp at this
    · exact ⟨_, _, rfl⟩
  have hfin : ¬ exStd.Infinite (fun _ => 1) := by rintro ⟨c, hc, _⟩; cases hc
  have he : Real.exp (-1) < 1 := by rw [Real.exp_lt_one_iff]; norm_num
  have hv : (1 : ℝ) / 4 < (exStd.M.data exStd.R).rawVar exStd.chol exStd.M.k (fun _ => 1) := by rw [exStd_rawVar]; linarith
  have hstd : (exStd.M.data exStd.R).std exStd.chol exStd.M.k (fun _ => 1) =
      Real.sqrt ((exStd.M.data exStd.R).rawVar exStd.chol exStd.M.k (fun _ => 1)) := by
    unfold Data.std
    dsimp only
    rw [if_neg (by linarith)]
  have hspos : (1 : ℝ) / 2 < (exStd.M.data exStd.R).std exStd.chol exStd.M.k (fun _ => 1) := by
    rw [hstd]
    apply Real.lt_sqrt_of_sq_lt
    linarith
  have hs2 : exStd.M.s = 2 := rfl
  have hpos : (1e-8 : ℝ) < |exStd.M.std exStd.chol exStd.R (fun _ => 1)| := by
    have : exStd.M.std exStd.chol exStd.R (fun _ => 1) = (exStd.M.data exStd.R).std exStd.chol exStd.M.k (fun _ => 1) * 2 := rfl
    rw [this, abs_of_pos (by linarith)]
    norm_num at hspos ⊢
    linarith
  obtain ⟨g, h1, h2, _⟩ := C67_std_partial exStd (fun _ _ => 0) (.rbf fun _ => 1) rfl trivial (by rw [hs2]; norm_num) _ gm gs hg
    hfin (fun _ => trivial) hpos 0
  refine ⟨gm, gs, g, hg, h1, ?_⟩
  have hne : gs 0 ≠ 0 := by
    obtain ⟨gk, hgk, _, rfl⟩ := predictGrad_ok hg hfin
    have hgk0 := hgk 0
    simp only [KExpr.gradX, Except.ok.injEq] at hgk0
    have hg00 : gk 0 0 = -Real.exp (-0.5) := by
      rw [← hgk0]
      simp [exStd, Model.data, sqDist]
    have hk : (exStd.M.data exStd.R).kTrans exStd.M.k (fun _ => 1) 0 = Real.exp (-0.5) := by
      simp [Data.kTrans, exStd, Model.data, KExpr.eval, sqDist]
    unfold stdGrad
    have hpos' : ¬ |(exStd.M.data exStd.R).std exStd.chol exStd.M.k (exStd.M.trX fun _ => 1) * exStd.M.s| ≤ 1e-8 := not_le.2 hpos
    rw [if_neg hpos', exStd_V, hs2]
    have htr : exStd.M.trX (fun _ => 1) = fun _ => 1 := rfl
    rw [htr]
    simp only [dotProduct, mulVec, Finset.univ_unique, Fin.default_eq_zero, Finset.sum_singleton, hk, hg00, Matrix.mul_apply,
      transpose_apply, of_apply]
    have h2p : 0 < (Real.sqrt 2)⁻¹ := by positivity
    have hex := Real.exp_pos (-0.5)
    have : 0 < -(Real.exp (-0.5) * ((Real.sqrt 2)⁻¹ * (Real.sqrt 2)⁻¹ * -Real.exp (-0.5))) /
        (exStd.M.data exStd.R).std exStd.chol exStd.M.k (fun _ => 1) * 2 * 2 := by
      have h3 : -(Real.exp (-0.5) * ((Real.sqrt 2)⁻¹ * (Real.sqrt 2)⁻¹ * -Real.exp (-0.5))) =
        Real.exp (-0.5) * ((Real.sqrt 2)⁻¹ * (Real.sqrt 2)⁻¹ * Real.exp (-0.5)) := by ring
      rw [h3]
      have : (0 : ℝ) < (exStd.M.data exStd.R).std exStd.chol exStd.M.k (fun _ => 1) := by linarith
      positivity
    exact this.ne'
  rw [h2, hs2] at hne ⊢
  intro hcon
  apply hne
  linarith

/-- Linear kernel, training point 1 with value 1 and noise level 1, clip factor 1. -/
noncomputable def exClip : St 1 1 :=
  { fitted := true, prior := fun _ => 1, M := ⟨(KExpr.dot 0).eval (fun _ _ => 0), id, 0, 1⟩, chol := chol1,
    R := ⟨fun _ _ => 1, fun _ => 1, fun _ => 1⟩, svm := none, trust := none, clip := some 1, minf := .negInf }

theorem exClip_mean (z : Fin 1 → ℝ) : (exClip.M.data exClip.R).mean exClip.chol exClip.M.k z = z 0 / 2 := by
  have hK : (exClip.M.data exClip.R).kmat exClip.M.k 0 0 = 2 := by
    simp [Data.kmat, exClip, Model.data, KExpr.eval]; norm_num
  have hf : IsFactor ((exClip.M.data exClip.R).kmat exClip.M.k) (exClip.chol ((exClip.M.data exClip.R).kmat exClip.M.k)) :=
    chol1_isFactor (by rw [hK]; norm_num)
  have ha := congrFun (kmat_alpha hf) 0
  simp only [mulVec, dotProduct, Finset.univ_unique, Fin.default_eq_zero, Finset.sum_singleton, hK] at ha
  have hy : (exClip.M.data exClip.R).y 0 = 1 := by simp [exClip, Model.data]
  rw [hy] at ha
  unfold Data.mean
  simp only [dotProduct, Finset.univ_unique, Fin.default_eq_zero, Finset.sum_singleton]
  have hk : (exClip.M.data exClip.R).kTrans exClip.M.k z 0 = z 0 := by
    simp [Data.kTrans, exClip, Model.data, KExpr.eval]
  rw [hk]
  have : ((exClip.M.data exClip.R).update exClip.chol exClip.M.k).alpha 0 = 1 / 2 := by linarith
  rw [this]; ring

/-- **C67** is false of the mean above the ceiling: the prediction is constant there, its gradient is not reported as zero. -/
theorem C67_clip_counterexample :
    (∃ ms ss, exClip.predict [fun _ => 4] false = .ok (ms, ss) ∧ ms = [.fin 1]) ∧
    ∃ gm gs v, exClip.predictGrad (fun _ _ => 0) (.dot 0) (fun _ => 4) = .ok (gm, gs) ∧ gm 0 = .fin v ∧ v ≠ 0 ∧
      HasPartial (fun z => min ((exClip.M.data exClip.R).mean exClip.chol exClip.M.k z * exClip.M.s + exClip.M.mu) 1) (fun _ => 4) 0 0 := by
  have hm : ∀ z, exClip.M.mean exClip.chol exClip.R z = z 0 / 2 := by
    intro z
    have : exClip.M.mean exClip.chol exClip.R z = (exClip.M.data exClip.R).mean exClip.chol exClip.M.k z * 1 + 0 := rfl
    rw [this, exClip_mean]; ring
  have hmf : (fun z => (exClip.M.data exClip.R).mean exClip.chol exClip.M.k z * exClip.M.s + exClip.M.mu) = fun z => z 0 / 2 := by
    funext z; rw [← hm z]; rfl
  constructor
  · refine ⟨_, _, rfl, ?_⟩
    show [Ext.fin (min (exClip.M.mean exClip.chol exClip.R (fun _ => 4)) (1 * 1 - (1 - 1) * 1))] = _
    rw [hm]; norm_num
  · obtain ⟨gm, gs, hg⟩ : ∃ gm gs, exClip.predictGrad (fun _ _ => 0) (.dot 0) (fun _ => 4) = .ok (gm, gs) := by
      unfold St.predictGrad
      simp only [exClip, KExpr.gradX]
      split
      · rename_i i hi
        have := List.find?_some hi
        simp at this
      · exact ⟨_, _, rfl⟩
    have hfin : ¬ exClip.Infinite (fun _ => 4) := by rintro ⟨c, hc, _⟩; cases hc
    obtain ⟨v, hv, hp, _⟩ := C67_mean_partial exClip (fun _ _ => 0) (.dot 0) rfl _ gm gs hg hfin (fun _ => trivial) 0
    refine ⟨gm, gs, v, hg, hv, ?_, ?_⟩
    · rw [hmf] at hp
      have h1 : HasPartial (fun z : Fin 1 → ℝ => z 0 / 2) (exClip.M.trX fun _ => 4) 0 (1 / 2) := by
        have := (hasPartial_coord (exClip.M.trX fun _ => (4 : ℝ)) 0 0).mul (hasPartial_const (1 / 2) _ 0)
        have e : (fun x : Fin 1 → ℝ => x 0 * (1 / 2)) = fun z => z 0 / 2 := by funext z; ring
        rw [e] at this
        refine this.congr_deriv (by simp)
      have := HasDerivAt.unique hp h1
      rw [this]; norm_num
    · have hmin : (fun z : Fin 1 → ℝ => min ((exClip.M.data exClip.R).mean exClip.chol exClip.M.k z * exClip.M.s + exClip.M.mu) 1) =
          fun z => min (z 0 / 2) 1 := by
        funext z; rw [congrFun hmf z]
      rw [hmin]
      refine HasPartial.congr_pos (hasPartial_const 1 (fun _ => (4 : ℝ)) (0 : Fin 1))
        ((hasPartial_coord (fun _ => (4 : ℝ)) (0 : Fin 1) 0).add (hasPartial_const (-2) _ 0)) (by norm_num) ?_
      intro z hz
      exact min_eq_right (by linarith)

/-- C14, C15: the first example, two points, with a classifier and a trust region that exclude some. -/
noncomputable def exPred : St 1 1 :=
  { exClip with svm := some ⟨true, false, true, fun x => decide (x 0 ≠ 0)⟩, trust := some fun _ => (-1, 4) }

example : ∃ ms ss, exPred.predict [fun _ => 0, fun _ => 1, fun _ => 3, fun _ => 5] false = .ok (ms, ss) ∧
    ms = [.negInf, .fin (1 / 2), .fin 1, .negInf] ∧ exPred.predictStd [fun _ => 0, fun _ => 1, fun _ => 3, fun _ => 5] = .ok ss ∧
    ss.head? = some 0 := by
  obtain ⟨ms, ss, h⟩ := C14_returns exPred (by rintro c hc; cases hc; rfl) [fun _ => 0, fun _ => 1, fun _ => 3, fun _ => 5] false
  refine ⟨ms, ss, h, ?_, C15_predict_std exPred _ _ _ _ h, ?_⟩
  · have hm : ∀ z, exPred.M.mean exPred.chol exPred.R z = z 0 / 2 := by
      intro z
      have : exPred.M.mean exPred.chol exPred.R z = (exClip.M.data exClip.R).mean exClip.chol exClip.M.k z * 1 + 0 := rfl
      rw [this, exClip_mean]; ring
    classical
    rcases (predict_eq (st := exPred) rfl h).2 with ⟨hall, _⟩ | ⟨φ, hφ, hms⟩
    · obtain ⟨c, hc, _, h2⟩ := hall (fun _ => 1) (by simp)
      cases hc
      simp [exPred, exClip] at h2
    · obtain ⟨t, ht, hv⟩ := hφ.some 1 rfl
      obtain ⟨i, j, _, _, rfl⟩ := ht.eq
      have h0 : exPred.Infinite (fun _ => 0) := ⟨_, rfl, rfl, Or.inr (by simp [exPred, exClip])⟩
      have h1 : ∀ a : ℝ, a ≠ 0 → ¬ exPred.Infinite (fun _ => a) := by
        rintro a ha ⟨c, hc, _, h2⟩
        cases hc
        simp [exPred, exClip, ha] at h2
      have h3 : ∀ a : ℝ, -1 ≤ a → a ≤ 4 → ¬ exPred.Outside false (fun _ => a) := by
        rintro a h1 h2 ⟨_, b, hb, j, hj⟩
        cases hb
        rcases hj with hj | hj <;> linarith
      have h5 : exPred.Outside false (fun _ => 5) := ⟨rfl, _, rfl, 0, Or.inr (by norm_num)⟩
      rw [hms]
      simp only [List.map_cons, List.map_nil, hv, hm]
      rw [if_pos (Or.inl h0), if_neg (by rintro (hh | hh); exacts [h1 1 one_ne_zero hh, h3 1 (by norm_num) (by norm_num) hh]),
        if_neg (by rintro (hh | hh); exacts [h1 3 (by norm_num) hh, h3 3 (by norm_num) (by norm_num) hh]), if_pos (Or.inr h5)]
      simp [exPred, exClip]
      norm_num
  · classical
    rw [(predict_eq (st := exPred) rfl h).1]
    simp only [List.map_cons, List.head?_cons, Option.some.injEq]
    rw [if_pos]
    exact ⟨_, rfl, rfl, Or.inr (by simp [exPred, exClip])⟩

/-- C67: the mean of the example with the linear kernel has slope 1/2. -/
example (gm : Fin 1 → Ext ℝ) (gs : Fin 1 → ℝ) (h : exClip.predictGrad (fun _ _ => 0) (.dot 0) (fun _ => 3) = .ok (gm, gs)) :
    ∃ v, gm 0 = .fin v ∧ HasPartial (fun z : Fin 1 → ℝ => z 0 / 2) (fun _ => 3) 0 v := by
  obtain ⟨v, hv, hp, -⟩ := C67_mean_partial exClip (fun _ _ => 0) (.dot 0) rfl (fun _ => 3) gm gs h (by rintro ⟨c, hc, _⟩; cases hc) (fun _ => trivial) 0
  refine ⟨v, hv, ?_⟩
  simp only [exClip_mean] at hp
  simpa [exClip] using hp

end GPry.Predict
