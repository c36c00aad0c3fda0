import Verif.BatchPre
import Verif.BatchProps
import Verif.PreprocProps
import Verif.PredictGrad
import Verif.AcqProps

set_option linter.all false

/-! # The local optimisation in transformed coordinates (C140) -/

namespace GPry.BatchPre

open GPry Batch Kernels

variable {d : ℕ}

/-- Widths are positive; eigenvectors are orthonormal and eigenvalues positive. -/
def Stage.Ok : Stage d → Prop
  | norm lo hi => ∀ i, lo i < hi i
  | white l V _ => V.transpose * V = 1 ∧ ∀ i, 0 < l i

theorem Stage.inv_tr (s : Stage d) (h : s.Ok) (x : Pt d) : s.inv (s.tr x) = x := by
  cases s with
  | norm lo hi =>
    funext i
    have : hi i - lo i ≠ 0 := (sub_pos.2 (h i)).ne'
    simp only [Stage.tr, Stage.inv]
    field_simp
    ring
  | white l V m => exact (Pre.C08_round_trip l V h.1 h.2 m x).1

theorem Stage.tr_inv (s : Stage d) (h : s.Ok) (z : Pt d) : s.tr (s.inv z) = z := by
  cases s with
  | norm lo hi =>
    funext i
    have : hi i - lo i ≠ 0 := (sub_pos.2 (h i)).ne'
    simp only [Stage.tr, Stage.inv]
    field_simp
    ring
  | white l V m => exact (Pre.C08_round_trip l V h.1 h.2 m z).2

theorem PreX.inv_tr (p : PreX d) (h : ∀ s ∈ p, s.Ok) (x : Pt d) : p.inv (p.tr x) = x := by
  unfold PreX.inv PreX.tr
  induction p generalizing x with
  | nil => rfl
  | cons s p ih =>
    rw [List.reverse_cons, List.foldl_append, List.foldl_cons, List.foldl_cons, ih (fun q hq => h q (by simp [hq]))]
    exact s.inv_tr (h s (by simp)) x

theorem PreX.tr_inv (p : PreX d) (h : ∀ s ∈ p, s.Ok) (z : Pt d) : p.tr (p.inv z) = z := by
  unfold PreX.inv PreX.tr
  induction p generalizing z with
  | nil => rfl
  | cons s p ih =>
    rw [List.reverse_cons, List.foldl_append, List.foldl_cons, List.foldl_cons, List.foldl_nil, s.tr_inv (h s (by simp))]
    exact ih (fun q hq => h q (by simp [hq])) z

/-! ## Gradients -/

/-- **C140** (gradient): the gradient of the objective function is right if the optimiser uses the preprocessors of the surrogate. The acquisition
function is a function `F` of the position in the coordinates of the surrogate, and the gradient it returns is that of `F` (C67, C51). -/
theorem C140_gradient (p : PreX d) (h : ∀ s ∈ p, s.Ok) (F : Pt d → ℝ) (acq : Pt d → Ext ℝ) (acqGrad : Pt d → Pt d)
    (ha : ∀ x, acq x = .fin (F (p.tr x))) (z : Pt d) (hg : ∀ j, HasPartial F z j (acqGrad (p.inv z) j)) :
    ∃ obj : Pt d → ℝ, (∀ w, objective p acq w = .fin (obj w)) ∧ ∀ j, HasPartial obj z j (objectiveGrad p acqGrad z j) := by
  refine ⟨fun w => -F w, fun w => by rw [objective, ha, p.tr_inv h]; rfl, fun j => ?_⟩
  have := (hg j).neg
  unfold objectiveGrad
  rw [neg_one_mul]
  exact this

/-- **C140** is false if the surrogate uses `Normalize_bounds` and the optimiser no preprocessor (the default if built directly): the gradient
returned is the derivative times the width of the prior, and right only where it is zero or the width is one. -/
theorem C140_gradient_counterexample (lo hi : Pt d) (h : ∀ i, lo i < hi i) (F : Pt d → ℝ) (acq : Pt d → Ext ℝ) (acqGrad : Pt d → Pt d)
    (ha : ∀ x, acq x = .fin (F (PreX.tr [.norm lo hi] x))) (z : Pt d) (j : Fin d)
    (hg : HasPartial F (PreX.tr [.norm lo hi] z) j (acqGrad z j)) :
    ∃ (obj : Pt d → ℝ) (g : ℝ), (∀ w, objective [] acq w = .fin (obj w)) ∧ HasPartial obj z j g ∧
      objectiveGrad [] acqGrad z j = g * (hi j - lo j) ∧
      (objectiveGrad [] acqGrad z j = g ↔ acqGrad z j = 0 ∨ hi j - lo j = 1) := by
  have hw : hi j - lo j ≠ 0 := (sub_pos.2 (h j)).ne'
  refine ⟨fun w => -F (PreX.tr [.norm lo hi] w), -(acqGrad z j / (hi j - lo j)), fun w => by rw [objective, ha]; rfl, ?_, ?_, ?_⟩
  · unfold HasPartial at hg ⊢
    have e : ∀ t, PreX.tr [.norm lo hi] (Function.update z j t) =
        Function.update (PreX.tr [.norm lo hi] z) j ((t - lo j) / (hi j - lo j)) := by
      intro t
      funext i
      by_cases hij : i = j
      · subst hij; simp [PreX.tr, Stage.tr]
      · simp [PreX.tr, Stage.tr, hij]
    have h1 : HasDerivAt (fun t : ℝ => (t - lo j) / (hi j - lo j)) (1 / (hi j - lo j)) (z j) :=
      ((hasDerivAt_id (z j)).sub_const _).div_const _
    have h2 : (PreX.tr [.norm lo hi] z) j = (z j - lo j) / (hi j - lo j) := rfl
    rw [h2] at hg
    have := (HasDerivAt.comp (z j) hg h1).neg
    refine (this.congr_deriv ?_).congr_of_eventuallyEq (Filter.Eventually.of_forall fun t => ?_)
    · rw [mul_one_div]
    · simp only [e]; rfl
  · show -1 * acqGrad z j = _
    field_simp
  · show -1 * acqGrad z j = _ ↔ _
    rw [neg_one_mul, neg_inj]
    constructor
    · intro he
      by_cases h0 : acqGrad z j = 0
      · exact .inl h0
      · right
        field_simp at he
        linarith
    · rintro (he | he)
      · rw [he]; simp
      · rw [he]; simp

/-- C140: the prediction of a surrogate (acquisition function `Mu`) with the preprocessors of the optimiser, where the classifier accepts the point. -/
theorem C140_gradient_mu {n : ℕ} (st : Predict.St d n) (general : ℕ → ℝ → ℝ) (e : KExpr d) (hk : st.M.k = e.eval general) (p : PreX d)
    (h : ∀ s ∈ p, s.Ok) (hp : st.M.trX = p.tr) (z : Pt d) (gm : Fin d → Ext ℝ) (gs : Fin d → ℝ)
    (hpred : st.predictGrad general e (p.inv z) = .ok (gm, gs)) (hfin : ¬ st.Infinite (p.inv z))
    (hreg : ∀ i, e.Regular general z (p.tr (st.R.X i))) :
    ∃ acqGrad : Pt d → Pt d, (∀ j, gm j = .fin (acqGrad (p.inv z) j)) ∧
      ∀ j, HasPartial (fun w => -(st.M.mean st.chol st.R (p.inv w))) z j (objectiveGrad p acqGrad z j) := by
  have ht : st.M.trX (p.inv z) = z := by rw [hp, p.tr_inv h]
  have key := fun j => Predict.C67_mean_partial st general e hk (p.inv z) gm gs hpred hfin (by rw [ht, hp]; exact hreg) j
  choose v hv hd _ using key
  refine ⟨fun _ => v, hv, fun j => ?_⟩
  have hj := hd j
  rw [ht] at hj
  have hm : ∀ w, st.M.mean st.chol st.R (p.inv w) = (st.M.data st.R).mean st.chol st.M.k w * st.M.s + st.M.mu := by
    intro w
    show (st.M.data st.R).mean st.chol st.M.k (st.M.trX (p.inv w)) * st.M.s + st.M.mu = _
    rw [hp, p.tr_inv h]
  unfold objectiveGrad
  rw [neg_one_mul]
  simp only [hm]
  exact hj.neg

/-! ## Bounds -/

/-- The optimiser does not leave the box that it is given, if it starts within. -/
def Stays (opt : Opt d) : Prop := ∀ f z b, InBox b z → InBox b (opt f z b).1

/-- The optimiser returns the value at the point that it returns. -/
def Honest (opt : Opt d) : Prop := ∀ f z b, (opt f z b).2 = f (opt f z b).1

theorem start_inside (s : Stage d) (hs : s.Ok) (b : Box d) (x : Pt d) (hx : InBox b x)
    (hb : ∀ lo hi, s = .norm lo hi → ∀ j, lo j ≤ (b j).1 ∧ (b j).2 ≤ hi j) : InBox (PreX.trBounds [s] b) (PreX.tr [s] x) := by
  cases s with
  | norm lo hi =>
    intro j
    have hw := sub_pos.2 (hs j)
    obtain ⟨h1, h2⟩ := hb lo hi rfl j
    obtain ⟨h3, h4⟩ := hx j
    show 0 ≤ (x j - lo j) / (hi j - lo j) ∧ (x j - lo j) / (hi j - lo j) ≤ 1
    exact ⟨div_nonneg (by linarith) hw.le, by rw [div_le_one hw]; linarith⟩
  | white l V m => exact fun j => Pre.C73_bounds_enclose l V m _ _ x hx j

/-- **C140** (start): the starting point of the optimiser is within its bounds, for bounds within those of `Normalize_bounds`. -/
theorem C140_start (p : PreX d) (h : ∀ s ∈ p, s.Ok) (hl : p.length ≤ 1) (b : Box d) (x : Pt d) (hx : InBox b x)
    (hb : ∀ lo hi, Stage.norm lo hi ∈ p → ∀ j, lo j ≤ (b j).1 ∧ (b j).2 ≤ hi j) : InBox (p.trBounds b) (p.tr x) := by
  match p, hl with
  | [], _ => exact hx
  | [s], _ => exact start_inside s (h s (by simp)) b x hx fun lo hi e => hb lo hi (by simp [e])

/-- The box of the optimiser, transformed back, is within the bounds. -/
def Faithful (p : PreX d) (b : Box d) : Prop := ∀ z, InBox (p.trBounds b) z → InBox b (p.inv z)

theorem faithful_nil (b : Box d) : Faithful [] b := fun _ h => h

/-- With `Normalize_bounds` the box of the optimiser is always the prior: it is within the bounds passed iff these contain the prior. -/
theorem faithful_norm (lo hi : Pt d) (h : ∀ i, lo i < hi i) (b : Box d) :
    Faithful [.norm lo hi] b ↔ ∀ j, (b j).1 ≤ lo j ∧ hi j ≤ (b j).2 := by
  constructor
  · intro hf j
    have h0 := hf (fun _ => 0) (fun _ => ⟨le_refl _, zero_le_one⟩) j
    have h1 := hf (fun _ => 1) (fun _ => ⟨zero_le_one, le_refl _⟩) j
    simp only [PreX.inv, List.reverse_singleton, List.foldl_cons, List.foldl_nil, Stage.inv] at h0 h1
    constructor <;> linarith [h0.1, h1.2]
  · intro hb z hz j
    have hw := sub_pos.2 (h j)
    obtain ⟨h1, h2⟩ := hb j
    obtain ⟨h3, h4⟩ := hz j
    change 0 ≤ z j at h3
    change z j ≤ 1 at h4
    show (b j).1 ≤ z j * (hi j - lo j) + lo j ∧ z j * (hi j - lo j) + lo j ≤ (b j).2
    constructor <;> nlinarith

section Batch
variable {S : Type}

/-- A property of the point and the value found by a restart. -/
theorem optimise_pred (e : Env S (Pt d) (Box d) ℝ) (s : S) (i : ℕ) (b : Box d) (props : List (Pt d)) (q : Pt d × Ext ℝ)
    (Q : Pt d × Ext ℝ → Prop) (hloc : ∀ x, e.isIn b x = true → Q (e.loc s x b)) (hprop : ∀ x ∈ props, e.isIn b x = true)
    (hlast : (∀ x ∈ props, (e.acq s x).isFinite = false) → ∀ x ∈ props, Q (x, (e.acq s x).neg))
    (h : (optimise e none s i (some b) props).2 = .ok q) : Q q := by
  obtain ⟨h1, h2, h3⟩ := C85_optimise_partial e s none (Or.inl rfl) i b props q h
  by_cases hi : i = 0
  · obtain ⟨x, rest, -, hx, -, rfl⟩ := h1 hi
    exact hloc x hx
  · by_cases hf : ∃ x ∈ props, (e.acq s x).isFinite = true
    · obtain ⟨x, hx, rfl, -⟩ := h2 hi hf
      exact hloc x (hprop x (List.mem_of_mem_filter (List.mem_of_mem_take hx)))
    · push Not at hf
      obtain ⟨x, hx, rfl⟩ := h3 hi fun x hx => by simpa using hf x hx
      exact hlast (fun x hx => by simpa using hf x hx) x (List.mem_of_getLast? hx)

/-- A property of the points of a batch and the copy with which they were found. -/
theorem batch_pred (c : Cfg S (Pt d) (Box d) ℝ) (bounds : Option (Box d)) (n : ℤ) (copy s' : S) (outs : List (Out (Pt d) ℝ))
    (Q : S → Pt d × Ext ℝ → Prop)
    (hloc : ∀ s x, c.env.isIn (bounds.getD c.env.prior) x = true → Q s (c.env.loc s x (bounds.getD c.env.prior)))
    (hprop : ∀ i j, ∀ x ∈ c.props i j, c.env.isIn (bounds.getD c.env.prior) x = true)
    (hlast : ∀ s i j, (∀ x ∈ c.props i j, (c.env.acq s x).isFinite = false) → ∀ x ∈ c.props i j, Q s (x, (c.env.acq s x).neg))
    (h : multiAdd c bounds n copy = .ok (s', outs)) :
    ∃ ss : ℕ → S, ss 0 = copy ∧ ∀ (i : ℕ) (hi : i < outs.length), ∃ v, outs[i].2.2 = v.neg ∧ Q (ss i) (outs[i].1, v) := by
  obtain ⟨_, ss, h0, hI⟩ := C58_batch_partial c bounds n copy s' outs h
  refine ⟨ss, h0, fun i hi => ?_⟩
  obtain ⟨⟨cands, hg⟩, _⟩ := hI i hi
  obtain ⟨v, hv, hv2, _⟩ := hg.mem
  refine ⟨v, hv2, ?_⟩
  obtain ⟨k, hk, hkv⟩ := List.getElem_of_mem hv
  have hk' : k < (List.range c.nRestarts).length := by rw [hg.restarts.length_eq]; exact hk
  have := (List.forall₂_iff_get.1 hg.restarts).2 k hk' hk
  rw [List.get_eq_getElem, List.get_eq_getElem, hkv] at this
  exact optimise_pred c.env (ss i) _ _ _ _ (Q (ss i)) (hloc (ss i)) (hprop i _) (hlast (ss i) i _) this

variable {p : PreX d} {opt : Opt d} {acq : S → Pt d → Ext ℝ} {train : S → List (Pt d)} {prior : Box d} {nRep : ℕ}

/-- **C140** (partial: the box of the optimiser transformed back must be within the bounds, see `faithful_norm`): the points proposed are within the
bounds, for every optimiser that stays in the box that it is given. -/
theorem C140_inside_partial (h : ∀ s ∈ p, s.Ok) (hl : p.length ≤ 1) (hopt : Stays opt) (c : Cfg S (Pt d) (Box d) ℝ)
    (hc : c.env = env p opt acq train prior nRep) (bounds : Option (Box d)) (hf : Faithful p (bounds.getD prior))
    (hb : ∀ lo hi, Stage.norm lo hi ∈ p → ∀ j, lo j ≤ ((bounds.getD prior) j).1 ∧ ((bounds.getD prior) j).2 ≤ hi j)
    (hprop : ∀ i j, ∀ x ∈ c.props i j, InBox (bounds.getD prior) x) (n : ℤ) (copy s' : S) (outs : List (Out (Pt d) ℝ))
    (hm : multiAdd c bounds n copy = .ok (s', outs)) : ∀ o ∈ outs, InBox (bounds.getD prior) o.1 := by
  have hcp : c.env.prior = prior := by rw [hc]; rfl
  have := C58_inside c bounds n copy s' outs (by
      rw [hcp, hc]
      intro s x hx
      simp only [env, decide_eq_true_eq] at hx ⊢
      exact hf _ (hopt _ _ _ (C140_start p h hl _ x hx hb)))
    (by
      rw [hcp, hc]
      intro i j x hx
      simp only [env, decide_eq_true_eq]
      exact hprop i j x hx) hm
  intro o ho
  have := this o ho
  rw [hcp, hc] at this
  simpa [env] using this

/-- **C140** (values): the third return value of `multi_add` is the acquisition function at the points proposed, of the copy with the lies appended. -/
theorem C140_values (hopt : Honest opt) (c : Cfg S (Pt d) (Box d) ℝ) (hc : c.env = env p opt acq train prior nRep)
    (bounds : Option (Box d)) (hprop : ∀ i j, ∀ x ∈ c.props i j, InBox (bounds.getD prior) x) (n : ℤ) (copy s' : S) (outs : List (Out (Pt d) ℝ))
    (hm : multiAdd c bounds n copy = .ok (s', outs)) :
    ∃ ss : ℕ → S, ss 0 = copy ∧ ∀ (i : ℕ) (hi : i < outs.length), outs[i].2.2 = acq (ss i) outs[i].1 := by
  have hcp : c.env.prior = prior := by rw [hc]; rfl
  have hneg : ∀ v : Ext ℝ, v.neg.neg = v := by intro v; cases v <;> simp [Ext.neg]
  obtain ⟨ss, h0, h1⟩ := batch_pred c bounds n copy s' outs (fun s q => q.2.neg = acq s q.1)
    (by
      intro s x _
      rw [hc]
      show ((opt _ _ _).2).neg = acq s (p.inv (opt _ _ _).1)
      rw [hopt, objective, hneg])
    (by
      rw [hcp, hc]
      intro i j x hx
      simp only [env, decide_eq_true_eq]
      exact hprop i j x hx)
    (by
      intro s i j _ x _
      rw [hc]
      exact hneg _) hm
  exact ⟨ss, h0, fun i hi => by obtain ⟨v, e1, e2⟩ := h1 i hi; rw [e1]; exact e2⟩

/-- **C140** (with a trust region in the surrogate): if the acquisition function is minus infinity out of the bounds passed, all the points proposed
whose acquisition value is finite are within them, with every preprocessor. -/
theorem C140_finite_partial (hopt : Honest opt) (c : Cfg S (Pt d) (Box d) ℝ) (hc : c.env = env p opt acq train prior nRep)
    (b : Box d) (hout : ∀ s x, ¬ InBox b x → acq s x = .negInf) (hprop : ∀ i j, ∀ x ∈ c.props i j, InBox b x)
    (n : ℤ) (copy s' : S) (outs : List (Out (Pt d) ℝ)) (hm : multiAdd c (some b) n copy = .ok (s', outs)) :
    ∀ o ∈ outs, o.2.2.isFinite = true → InBox b o.1 := by
  obtain ⟨ss, -, h1⟩ := C140_values hopt c hc (some b) hprop n copy s' outs hm
  intro o ho hfin
  obtain ⟨i, hi, rfl⟩ := List.getElem_of_mem ho
  by_contra hx
  rw [h1 i hi, hout _ _ hx] at hfin
  cases hfin

/-- **C140** is false with `Normalize_bounds` (the default of `Runner`) and bounds smaller than the prior, as `Runner` passes those of the trust
region: a maximum out of the bounds is proposed by every optimiser that finds it when it is in its box. -/
theorem C140_trust_counterexample (lo hi : Pt d) (hlh : ∀ i, lo i < hi i) (b : Box d)
    (hb : ∀ j, lo j ≤ (b j).1 ∧ (b j).2 ≤ hi j) (m : Pt d) (hm1 : ∀ j, lo j ≤ m j ∧ m j ≤ hi j) (hm2 : ¬ InBox b m)
    (hfind : ∀ s z B, InBox B z → InBox B (PreX.tr [.norm lo hi] m) →
      (opt (objective [.norm lo hi] (acq s)) z B).1 = PreX.tr [.norm lo hi] m)
    (c : Cfg S (Pt d) (Box d) ℝ) (hc : c.env = env [.norm lo hi] opt acq train prior nRep)
    (hprop : ∀ i j, ∀ x ∈ c.props i j, InBox b x) (hfp : ∀ s i j, ∃ x ∈ c.props i j, (acq s x).isFinite = true)
    (n : ℤ) (copy s' : S) (outs : List (Out (Pt d) ℝ)) (hma : multiAdd c (some b) n copy = .ok (s', outs)) :
    ∀ o ∈ outs, o.1 = m ∧ ¬ InBox b o.1 := by
  have hok : ∀ s ∈ ([.norm lo hi] : PreX d), s.Ok := by simp [Stage.Ok]; exact hlh
  obtain ⟨ss, -, h1⟩ := batch_pred c (some b) n copy s' outs (fun s q => q.1 = m)
    (by
      intro s x hx
      rw [hc] at hx ⊢
      simp only [env, Option.getD_some, decide_eq_true_eq] at hx
      show PreX.inv _ (opt (objective [.norm lo hi] (acq s)) (PreX.tr [.norm lo hi] x) (PreX.trBounds [.norm lo hi] b)).1 = m
      rw [hfind s _ _ (C140_start _ hok (by simp) _ x hx (by
        intro lo' hi' hmem j
        simp only [List.mem_singleton, Stage.norm.injEq] at hmem
        obtain ⟨rfl, rfl⟩ := hmem
        exact hb j)), PreX.inv_tr _ hok]
      intro j
      have hw := sub_pos.2 (hlh j)
      show 0 ≤ (m j - lo j) / (hi j - lo j) ∧ (m j - lo j) / (hi j - lo j) ≤ 1
      exact ⟨div_nonneg (by linarith [(hm1 j).1]) hw.le, by rw [div_le_one hw]; linarith [(hm1 j).2]⟩)
    (by
      rw [hc]
      intro i j x hx
      simp only [env, Option.getD_some, decide_eq_true_eq]
      exact hprop i j x hx)
    (by
      intro s i j hinf x _
      obtain ⟨y, hy, hy2⟩ := hfp s i j
      have := hinf y hy
      rw [hc] at this
      rw [show (env [.norm lo hi] opt acq train prior nRep).acq s y = acq s y from rfl, hy2] at this
      cases this) hma
  intro o ho
  obtain ⟨i, hi', rfl⟩ := List.getElem_of_mem ho
  obtain ⟨v, -, hv⟩ := h1 i hi'
  exact ⟨hv, by rw [show outs[i].1 = m from hv]; exact hm2⟩

end Batch

/-- C140: `LogExp` of a surrogate with a trust region is minus infinity out of it, as `C140_finite_partial` requires. (The copy made by `multi_add`
has none until something is appended to it, see C20.) -/
theorem C140_trust_region {n : ℕ} (st : Predict.St d n) (hfit : st.fitted = true) (hminf : st.minf = .negInf) (hs : 0 ≤ st.M.s) (b : Box d)
    (ht : st.trust = some b) (x : Pt d) (hx : ¬ InBox b x) (ms : List (Ext ℝ)) (ss : List ℝ) (hp : st.predict [x] false = .ok (ms, ss))
    (zeta noise baseline : ℝ) (hn : 0 ≤ noise) : Acq.logExpValues zeta noise baseline ms ss = [.negInf] := by
  obtain ⟨h1, h2, h3⟩ := Predict.C14_predict st hfit hminf hs [x] false ms ss hp
  match ms, ss, h1, h2 with
  | [m], [s], _, _ =>
    have hm : m = .negInf := ((h3 0 (by simp) (by simp) (by simp)).1).2 (Or.inr ⟨rfl, b, ht, by
      unfold InBox at hx
      push Not at hx
      obtain ⟨j, hj⟩ := hx
      by_cases hlo : (b j).1 ≤ x j
      · exact ⟨j, Or.inr (hj hlo)⟩
      · exact ⟨j, Or.inl (not_le.1 hlo)⟩⟩)
    obtain ⟨h4, h5⟩ := Acq.C50_values zeta noise baseline hn [m] [s] rfl fun s' hs' => by
      rw [List.mem_singleton.1 hs']
      exact (h3 0 (by simp) (by simp) (by simp)).2.2.1
    have := ((h5 0 (by simp) (by simp) (by rw [h4]; simp)).1).2 (Or.inr (by simp [hm]))
    exact List.ext_getElem (by rw [h4]; rfl) fun i hi _ => by
      have : i = 0 := by rw [h4] at hi; simpa using hi
      subst this
      simpa using this

/-! ## The optimiser of the examples -/

/-- Goes to the point 8 of `[0, 10]` if that is in its box. -/
noncomputable def exP : PreX 1 := [.norm (fun _ => 0) fun _ => 10]

open Classical in
noncomputable def exOpt : Opt 1 := fun f z B => if InBox B (fun _ => 4 / 5) then (fun _ => 4 / 5, f fun _ => 4 / 5) else (z, f z)

theorem exOpt_stays : Stays exOpt := by
  intro f z B hz
  unfold exOpt
  split <;> assumption

theorem exOpt_honest : Honest exOpt := by
  intro f z B
  unfold exOpt
  split <;> rfl

theorem exP_ok : ∀ s ∈ exP, s.Ok := by
  intro s hs
  simp only [exP, List.mem_singleton] at hs
  subst hs
  exact fun _ => by norm_num

noncomputable def exAcq : Unit → Pt 1 → Ext ℝ := fun _ x => .fin (-(x 0 - 8) ^ 2)

noncomputable def exCfg (acq : Unit → Pt 1 → Ext ℝ) : Cfg Unit (Pt 1) (Box 1) ℝ where
  env := env exP exOpt acq (fun _ => [fun _ => 2]) (fun _ => (0, 10)) 5
  nRestarts := 1
  props _ _ := [fun _ => 3]
  predict _ _ := .fin 0
  append s _ _ := .ok s

theorem exP_eight : exP.inv (fun _ => 4 / 5) = fun _ => (8 : ℝ) := by
  funext i
  show (4 / 5 : ℝ) * (10 - 0) + 0 = 8
  norm_num

theorem exRun (acq : Unit → Pt 1 → Ext ℝ) (hi : ℝ) (h : 2 ≤ hi) :
    multiAdd (exCfg acq) (some fun _ => (0, hi)) 1 () = .ok ((), [(fun _ => 8, .fin 0, acq () fun _ => 8)]) := by
  have hin : InBox (fun _ : Fin 1 => ((0 : ℝ), hi)) (fun _ => 2) := fun _ => ⟨by norm_num, h⟩
  have hbox : InBox (exP.trBounds fun _ : Fin 1 => ((0 : ℝ), hi)) (fun _ => 4 / 5) := fun _ => by
    show (0 : ℝ) ≤ 4 / 5 ∧ (4 / 5 : ℝ) ≤ 1
    norm_num
  have hneg : ∀ v : Ext ℝ, v.neg.neg = v := by intro v; cases v <;> simp [Ext.neg]
  have hopt : (optimise (exCfg acq).env none () 0 (some fun _ => (0, hi)) [fun _ => 3]).2 = .ok (fun _ => 8, (acq () fun _ => 8).neg) := by
    unfold optimise
    simp [exCfg, env, hin, loc, exOpt, hbox, exP_eight, objective]
  unfold multiAdd
  rw [if_neg (by norm_num)]
  show serial _ _ 1 1 () = _
  have hr : (rankLoop (exCfg acq).env () (fun _ => (0, hi)) ((exCfg acq).props 0) none (List.range 1)).2 =
      .ok [(fun _ => 8, (acq () fun _ => 8).neg)] := by
    rw [show List.range 1 = [0] from rfl, rankLoop]
    rcases ho : optimise (exCfg acq).env none () 0 (some fun _ => (0, hi)) ((exCfg acq).props 0 0) with ⟨o, r⟩
    have : r = .ok (fun _ => 8, (acq () fun _ => 8).neg) := by
      rw [← hopt]
      exact (congrArg Prod.snd ho).symm
    subst this
    rfl
  rw [serial]
  simp only [Option.getD_some]
  rw [show (exCfg acq).nRestarts = 1 from rfl, show (1 - (0 + 1)) = 0 from rfl, hr]
  simp only
  have hpick : pick [(acq () fun _ => 8).neg] = some 0 := by
    unfold pick
    split
    · unfold argmin
      cases hv : (acq () fun _ => 8).neg <;> simp [List.findIdx?_cons, Ext.isNan, argminGo, Ext.lt]
    · rfl
  unfold choose
  simp only [List.map_cons, List.map_nil, hpick, List.getElem?_cons_zero]
  rw [hneg]
  rfl

/-- The bounds are [0, 4], the point proposed is 8. -/
example : ¬ InBox (fun _ : Fin 1 => ((0 : ℝ), 4)) fun _ => 8 := by
  have := C140_trust_counterexample (fun _ => 0) (fun _ => 10) (fun _ => by norm_num) (fun _ => (0, 4)) (fun _ => by norm_num) (fun _ : Fin 1 => 8)
    (fun _ => by norm_num) (fun h => by have := (h 0).2; norm_num at this) (opt := exOpt) (acq := exAcq) (train := fun _ => [fun _ => 2])
    (prior := fun _ => (0, 10)) (nRep := 5)
    (fun s z B _ h => by
      have e : PreX.tr [.norm (fun _ => 0) fun _ => 10] (fun _ : Fin 1 => (8 : ℝ)) = fun _ => 4 / 5 := by
        funext i
        show ((8 : ℝ) - 0) / (10 - 0) = 4 / 5
        norm_num
      rw [e] at h ⊢
      unfold exOpt
      rw [if_pos h])
    (exCfg exAcq) rfl (fun _ _ x hx => by simp only [exCfg, List.mem_singleton] at hx; subst hx; exact fun _ => by norm_num)
    (fun _ _ _ => ⟨fun _ => 3, by simp [exCfg], rfl⟩) 1 () _ _ (exRun exAcq 4 (by norm_num))
  exact (this _ (List.mem_singleton.2 rfl)).2

/-- With the bounds of the prior the point is within them. -/
example : InBox (fun _ : Fin 1 => ((0 : ℝ), 10)) fun _ => 8 :=
  C140_inside_partial exP_ok (by simp [exP]) exOpt_stays (exCfg exAcq) rfl (some fun _ => (0, 10))
    ((faithful_norm _ _ (fun _ => by norm_num) _).2 fun _ => by norm_num)
    (fun lo hi h j => by
      simp only [exP, List.mem_singleton, Stage.norm.injEq] at h
      obtain ⟨rfl, rfl⟩ := h
      norm_num)
    (fun _ _ x hx => by simp only [exCfg, List.mem_singleton] at hx; subst hx; exact fun _ => by norm_num)
    1 () _ _ (exRun exAcq 10 (by norm_num)) _ (List.mem_singleton.2 rfl)

example : ∃ ss : ℕ → Unit, ss 0 = () ∧ ∀ (i : ℕ) (hi : i < 1), ([(fun _ => 8, .fin 0, exAcq () fun _ => 8)] : List (Out (Pt 1) ℝ))[i].2.2 =
    exAcq (ss i) ([(fun _ => 8, .fin 0, exAcq () fun _ => 8)] : List (Out (Pt 1) ℝ))[i].1 :=
  C140_values exOpt_honest (exCfg exAcq) rfl (some fun _ => (0, 4))
    (fun _ _ x hx => by simp only [exCfg, List.mem_singleton] at hx; subst hx; exact fun _ => by norm_num) 1 () _ _ (exRun exAcq 4 (by norm_num))

open Classical in
/-- Minus infinity out of [0, hi]. -/
noncomputable def exTrust (hi : ℝ) : Unit → Pt 1 → Ext ℝ := fun _ x => if InBox (fun _ => (0, hi)) x then .fin (-(x 0 - 8) ^ 2) else .negInf

example : InBox (fun _ : Fin 1 => ((0 : ℝ), 9)) fun _ => 8 :=
  C140_finite_partial exOpt_honest (exCfg (exTrust 9)) rfl (fun _ => (0, 9)) (fun _ x hx => by simp [exTrust, hx])
    (fun _ _ x hx => by simp only [exCfg, List.mem_singleton] at hx; subst hx; exact fun _ => by norm_num) 1 () _ _ (exRun _ 9 (by norm_num))
    _ (List.mem_singleton.2 rfl) (by
      have : InBox (fun _ : Fin 1 => ((0 : ℝ), 9)) fun _ => 8 := fun _ => by norm_num
      simp only [exTrust, if_pos this, Ext.isFinite])

/-- `C140_finite_partial` needs the finite value: an optimiser may return a point out of the bounds with minus infinity. -/
theorem C140_infinite_counterexample : ∃ (b : Box 1) (acq : Unit → Pt 1 → Ext ℝ) (o : Out (Pt 1) ℝ),
    (∀ s x, ¬ InBox b x → acq s x = .negInf) ∧ multiAdd (exCfg acq) (some b) 1 () = .ok ((), [o]) ∧ ¬ InBox b o.1 ∧ o.2.2 = .negInf := by
  have h8 : ¬ InBox (fun _ : Fin 1 => ((0 : ℝ), 4)) fun _ => 8 := fun h => by have := (h 0).2; norm_num at this
  exact ⟨fun _ => (0, 4), exTrust 4, _, fun _ x hx => by simp [exTrust, hx], exRun (exTrust 4) 4 (by norm_num), h8, by simp [exTrust, h8]⟩

/-- **C140** is false with `Whitening`: the box of the optimiser encloses the whitened bounds, so that points in it are out of the bounds. -/
theorem C140_whiten_counterexample : ∃ (s : Stage 2) (b : Box 2) (z : Pt 2), s.Ok ∧ InBox (PreX.trBounds [s] b) z ∧ ¬ InBox b (PreX.inv [s] z) := by
  have h3 : (0 : ℝ) < Real.sqrt 3 := Real.sqrt_pos.2 (by norm_num)
  refine ⟨.white Pre.exL Pre.exV 0, fun _ => (-1, 1), ![7 / 5 / Real.sqrt 3, 7 / 5], ⟨Pre.exV_orth, Pre.exL_pos⟩, ?_, ?_⟩
  · have hv : ∀ c : Fin 2 → Bool, Pre.whiten Pre.exL Pre.exV 0 (Pre.vertex (fun _ => -1) (fun _ => 1) c) =
        ![(4 / 5 * (if c 0 then 1 else -1) - 3 / 5 * if c 1 then 1 else -1) / Real.sqrt 3,
          3 / 5 * (if c 0 then 1 else -1) + 4 / 5 * if c 1 then 1 else -1] := by
      intro c
      funext i
      fin_cases i <;> simp [Pre.whiten, Pre.whitenMat, Pre.exL, Pre.exV, Pre.vertex, Matrix.mulVec, dotProduct, Fin.sum_univ_two, Matrix.mul_apply,
        Matrix.diagonal_apply] <;> split_ifs <;> ring
    have key : ∀ (i : Fin 2) (c c' : Fin 2 → Bool) (v : ℝ), Pre.whiten Pre.exL Pre.exV 0 (Pre.vertex (fun _ => -1) (fun _ => 1) c) i ≤ v →
        v ≤ Pre.whiten Pre.exL Pre.exV 0 (Pre.vertex (fun _ => -1) (fun _ => 1) c') i →
        (Pre.whitenBounds Pre.exL Pre.exV 0 (fun _ => -1) (fun _ => 1) i).1 ≤ v ∧ v ≤ (Pre.whitenBounds Pre.exL Pre.exV 0 (fun _ => -1) (fun _ => 1) i).2 :=
      fun i c c' v h1 h2 => ⟨(Finset.inf'_le (fun c => Pre.whiten Pre.exL Pre.exV 0 (Pre.vertex (fun _ => -1) (fun _ => 1) c) i) (Finset.mem_univ c)).trans h1, h2.trans (Finset.le_sup' (fun c => Pre.whiten Pre.exL Pre.exV 0 (Pre.vertex (fun _ => -1) (fun _ => 1) c) i) (Finset.mem_univ c'))⟩
    intro i
    show (Pre.whitenBounds Pre.exL Pre.exV 0 (fun _ => -1) (fun _ => 1) i).1 ≤ _ ∧ _ ≤ (Pre.whitenBounds Pre.exL Pre.exV 0 (fun _ => -1) (fun _ => 1) i).2
    fin_cases i
    · refine key 0 ![false, true] ![true, false] _ ?_ ?_ <;> rw [hv] <;> simp <;> rw [div_le_div_iff_of_pos_right h3] <;> norm_num
    · refine key 1 ![false, false] ![true, true] _ ?_ ?_ <;> rw [hv] <;> simp <;> norm_num
  · intro h
    have := (h 0).2
    have e : PreX.inv [Stage.white Pre.exL Pre.exV 0] ![7 / 5 / Real.sqrt 3, 7 / 5] 0 = 49 / 25 := by
      simp only [PreX.inv, List.reverse_singleton, List.foldl_cons, List.foldl_nil, Stage.inv, Pre.unwhiten, Pre.whitenInv, Matrix.mulVec, dotProduct,
        Fin.sum_univ_two, Matrix.mul_diagonal, Pi.add_apply]
      simp [Pre.exL, Pre.exV]
      field_simp
      norm_num
    rw [e] at this
    norm_num at this

/-! ## Each theorem applied to concrete data -/

/-- Along one axis of two normalised coordinates. -/
example : ∃ obj : Pt 1 → ℝ, (∀ w, objective exP (fun x => .fin ((exP.tr x 0) ^ 2)) w = .fin (obj w)) ∧
    ∀ j, HasPartial obj (fun _ => 3) j (objectiveGrad exP (fun x _ => 2 * exP.tr x 0) (fun _ => 3) j) :=
  C140_gradient exP exP_ok (fun w => w 0 ^ 2) _ (fun x _ => 2 * exP.tr x 0) (fun _ => rfl) (fun _ => 3) fun j => by
    rw [PreX.tr_inv _ exP_ok]
    have : j = 0 := Subsingleton.elim _ _
    subst this
    simpa [HasPartial] using hasDerivAt_pow 2 (3 : ℝ)

/-- The derivative of minus `(x / 10) ^ 2` at 5 is -1 / 10, the one used -1. -/
example : ∃ (obj : Pt 1 → ℝ) (g : ℝ), HasPartial obj (fun _ => 5) 0 g ∧ (-1 * (2 * (1 / 2)) : ℝ) = g * 10 ∧ (-1 * (2 * (1 / 2)) : ℝ) ≠ g := by
  obtain ⟨obj, g, -, h1, h2, h3⟩ := C140_gradient_counterexample (fun _ => 0) (fun _ => 10) (fun _ => by norm_num) (fun w : Pt 1 => w 0 ^ 2)
    (fun x => .fin ((exP.tr x 0) ^ 2)) (fun _ _ => 2 * (1 / 2)) (fun _ => rfl) (fun _ => 5) 0 (by
      have e : (PreX.tr [.norm (fun _ => 0) fun _ => 10] fun _ : Fin 1 => (5 : ℝ)) = fun _ => 1 / 2 := by
        funext i
        show ((5 : ℝ) - 0) / (10 - 0) = 1 / 2
        norm_num
      rw [e]
      simpa [HasPartial] using hasDerivAt_pow 2 (1 / 2 : ℝ))
  exact ⟨obj, g, h1, by simpa [objectiveGrad] using h2, fun h => by have := h3.1 h; norm_num at this⟩

example : InBox (exP.trBounds fun _ => (1, 9)) (exP.tr fun _ => 2) :=
  C140_start exP exP_ok (by simp [exP]) _ _ (fun _ => by norm_num) fun lo hi h j => by
    simp only [exP, List.mem_singleton, Stage.norm.injEq] at h
    obtain ⟨rfl, rfl⟩ := h
    norm_num

example : exP.inv (exP.tr fun _ => 7) = fun _ => 7 := PreX.inv_tr exP exP_ok _

example (z : Pt 2) : PreX.tr [.white Pre.exL Pre.exV 0, .norm (fun _ => -2) fun _ => 5] (PreX.inv [.white Pre.exL Pre.exV 0, .norm (fun _ => -2) fun _ => 5] z) = z :=
  PreX.tr_inv _ (by
    intro s hs
    simp only [List.mem_cons, List.not_mem_nil, or_false] at hs
    rcases hs with rfl | rfl
    · exact ⟨Pre.exV_orth, Pre.exL_pos⟩
    · exact fun _ => by norm_num) z

/-- A box smaller than the prior. -/
example : ¬ Faithful exP fun _ => (1, 9) := fun h => by
  have := ((faithful_norm _ _ (fun _ => by norm_num) _).1 h 0).1
  norm_num at this

/-- The surrogate of C67 with normalised coordinates. -/
noncomputable def exSt : Predict.St 1 1 := { Predict.exStd with M := { Predict.exStd.M with trX := exP.tr } }

example : ∃ acqGrad : Pt 1 → Pt 1, ∀ j, HasPartial (fun w => -(exSt.M.mean exSt.chol exSt.R (exP.inv w))) (fun _ => 1) j
    (objectiveGrad exP acqGrad (fun _ => 1) j) := by
  obtain ⟨gm, gs, hg⟩ : ∃ gm gs, exSt.predictGrad (fun _ _ => 0) (.rbf fun _ => 1) (exP.inv fun _ => 1) = .ok (gm, gs) := by
    unfold Predict.St.predictGrad
    simp only [exSt, Predict.exStd, KExpr.gradX]
    split
    · rename_i i hi
      have := List.find?_some hi
      simp at this
    · exact ⟨_, _, rfl⟩
  obtain ⟨a, -, h⟩ := C140_gradient_mu exSt (fun _ _ => 0) (.rbf fun _ => 1) rfl exP exP_ok rfl (fun _ => 1) gm gs hg
    (by rintro ⟨c, hc, _⟩; cases hc) (fun i => by simp [KExpr.Regular])
  exact ⟨a, h⟩

example (ms : List (Ext ℝ)) (ss : List ℝ) (h : ({ exSt with trust := some fun _ => (1, 9) } : Predict.St 1 1).predict [fun _ => 0] false = .ok (ms, ss)) :
    Acq.logExpValues 1 (1 / 10) 0 ms ss = [.negInf] :=
  C140_trust_region _ rfl rfl (show (0 : ℝ) ≤ 2 by norm_num) (fun _ => (1, 9)) rfl _ (fun h => by have := (h 0).1; norm_num at this) ms ss h _ _ _ (by norm_num)

end GPry.BatchPre
