import Verif.Again

set_option linter.all false

/-!
# Points that were evaluated to minus infinity

No definitions of the code. Points with value minus infinity (or below the threshold) are no training points of the regressor (gpr.py:717-745): they reach
its predictions through the decision of the classifier only (gpr.py:1308-1330). So whether such a point can be proposed again is whether the classifier
takes it as finite; a support vector machine may do so for points that it was trained on.
-/

namespace GPry.Again

open GPry Acq AcqPts Predict NoraSpmd Nora Ranked Spmd Proposed Matrix

variable {d n : ℕ}

/-- **C166**: with a single noise level (and no `sigma_n`) the acquisition function is minus infinity exactly at the points that the classifier takes as
infinite, those out of the trust region and those whose standard deviation is not above the noise level; anywhere else it is a number. -/
theorem C166_where (k : Proposed.Kind) {zeta : ℝ} (hz : 0 < zeta) (cdf pdf : ℝ → ℝ) (g : Surrogate d (n + 1)) (hfit : g.st.fitted = true)
    (hminf : g.st.minf = .negInf) (hs : 0 ≤ g.st.M.s) {noise : ℝ} (hn : 0 ≤ noise) (hno : g.noise = .scalar noise)
    (hok : ∀ c, g.st.svm = some c → c.trained = true) (x : Fin d → ℝ) :
    (((k.leaf zeta none).eval cdf pdf g [x]).2 = .ok [.negInf] ↔
      g.st.Infinite x ∨ g.st.Outside false x ∨ g.st.M.std g.st.chol g.st.R x ≤ noise) ∧
    (((k.leaf zeta none).eval cdf pdf g [x]).2 ≠ .ok [.negInf] → ∃ v, ((k.leaf zeta none).eval cdf pdf g [x]).2 = .ok [.fin v]) := by
  obtain ⟨ms, ss, h⟩ := C14_returns g.st hok [x] false
  obtain ⟨h1, h2, h3⟩ := C14_predict g.st hfit hminf hs _ _ _ _ h
  match ms, ss, h1, h2 with
  | [m], [s], _, _ =>
    obtain ⟨a, b, c, e, f⟩ := h3 0 (by simp) (by simp) (by simp)
    simp only [List.getElem_cons_zero] at a b c e f
    rw [← C165_values_partial k hz cdf pdf g hfit hminf hs noise hno _ _ _ h, hno]
    have hv : noraValues k zeta g.yMax (.scalar noise) [m] [s] = .ok [k.f zeta noise g.yMax m s] := rfl
    rw [hv]
    by_cases hm : m = .negInf
    · subst hm
      rw [f_negInf k hz]
      refine ⟨⟨fun _ => ?_, fun _ => rfl⟩, fun q => absurd rfl q⟩
      rcases a.1 rfl with q | q
      · exact .inl q
      · exact .inr (.inl q)
    · obtain ⟨v, rfl, -⟩ := b hm
      have hni : ¬ (g.st.Infinite x ∨ g.st.Outside false x) := fun q => hm (a.2 q)
      rw [not_or] at hni
      rw [← f hni.1]
      by_cases hle : s ≤ noise
      · rw [(f_fin k zeta noise g.yMax v s).1 (pow_le_pow_left₀ c hle 2)]
        exact ⟨⟨fun _ => .inr (.inr hle), fun _ => rfl⟩, fun q => absurd rfl q⟩
      · obtain ⟨w, hw⟩ := (f_fin k zeta noise g.yMax v s).2 (pow_lt_pow_left₀ (not_le.1 hle) hn two_ne_zero)
        rw [hw]
        refine ⟨⟨fun q => by simp at q, ?_⟩, fun _ => ⟨w, rfl⟩⟩
        rintro (q | q | q)
        · exact absurd q hni.1
        · exact absurd q hni.2
        · exact absurd q hle

/-- **C166**: no evaluated point that the classifier takes as infinite is proposed again by NORA. -/
theorem C166_infinite_partial {p : ℕ} (hp : 0 < p) (k : Proposed.Kind) {zeta : ℝ} (hz : 0 < zeta) {noise : ℝ} (hno : 0 ≤ noise) (baseline : ℝ)
    (st : St d n) (hfit : st.fitted = true) (hminf : st.minf = .negInf) (hs : 0 < st.M.s)
    (q : Par ℝ EReal) (hpred : ∀ x, st.predict [pt d x] false = .ok ([(q.pred x).1], [(q.pred x).2]))
    (hacq : ∀ mu std, q.acq mu std = toV (k.f zeta noise baseline mu std))
    (hnan : ∀ pre x y, q.cfg.cond pre x y ≠ none) (hinf : ∀ pre x y, q.cfg.cond pre x y ≠ some ⊤) (hsort : SortsDesc q.cfg.argsortDesc)
    (horder : ∀ l, (q.order l).Perm l) (hn : q.n ≠ 0) (hm : q.m ≠ 0)
    (draw : Fin p → Prog AErr (Option (List (List ℝ) × Option (List ℝ)))) (D : List (List ℝ) × Option (List ℝ))
    (hd : Runs draw fun r => .ok (if r.val = 0 then some D else none)) (s : Fin p → PState ℝ) (i : ℕ) (hi : ∀ r, (s r).i = i)
    (X proposed : List (List ℝ))
    (hX : (sampleNow q.m i q.force = true ∧ X = D.1 ∧ proposed = []) ∨
      (sampleNow q.m i q.force = false ∧ proposed = (s ⟨0, hp⟩).proposed ∧
        ∃ o w, (s ⟨0, hp⟩).mc.orig = some o ∧ Nora.reweight q.pred q.inB o = .ok w ∧ X = w.X))
    (evaluated : List (Fin d → ℝ)) (hev : ∀ x ∈ evaluated, st.Infinite x) :
    ∃ (out : List (List ℝ)) (s' : Fin p → PState ℝ),
      Runs (fun r : Fin p => multiAdd p r q (draw r) (s r)) (fun r => .ok (s' r, out, out.map fun x => (q.pred x).1)) ∧
      ∀ x ∈ out, pt d x ∉ evaluated := by
  obtain ⟨out, s', h1, -, h3, -⟩ := C164_nora hp k hz hno baseline st hfit hminf hs.le q hpred hacq hnan hinf hsort horder hn hm draw D hd s i hi X
    proposed hX
  exact ⟨out, s', h1, fun x hx he => (h3 x hx).1 (hev _ he)⟩

/-- As `exClip`, with a classifier that was trained on points of both classes and takes everything up to 6 as finite. -/
noncomputable def exSix : St 1 1 := { exClip with svm := some ⟨true, false, true, fun x => open Classical in decide (x 0 ≤ 6)⟩ }

theorem exSix_std (z : Fin 1 → ℝ) : exSix.M.std exSix.chol exSix.R z = Real.sqrt (z 0 ^ 2 / 2) := by
  have hv : exSix.M.std exSix.chol exSix.R z = (exClip.M.data exClip.R).std exClip.chol exClip.M.k z * 1 := rfl
  have hr : (exClip.M.data exClip.R).rawVar exClip.chol exClip.M.k z = z 0 ^ 2 / 2 := by
    have hi : ((exClip.M.data exClip.R).kmat exClip.M.k)⁻¹ = diagonal fun _ => 1 / 2 := by
      apply inv_eq_left_inv
      ext i j
      fin_cases i; fin_cases j
      simp [diagonal_mul, exClip_kmat]
    rw [Gp.rawVar_eq exClip_factor, hi]
    simp [dotProduct, mulVec, diagonal, Gp.Data.kTrans, exClip, Gp.Model.data, Kernels.KExpr.eval]
    ring
  rw [hv]
  unfold Gp.Data.std
  dsimp only
  rw [hr, if_neg (not_lt.2 (by positivity)), mul_one]

/-- **C166** is false for points that were evaluated to minus infinity but are taken as finite by the classifier: at 5 the acquisition function is a
number. -/
theorem C166_infinite_counterexample (cdf pdf : ℝ → ℝ) : ¬ exSix.Infinite (fun _ => 5) ∧ (∀ i, exSix.R.X i ≠ fun _ => 5) ∧
    ∃ v, ((Leaf.logExp 1 none).eval cdf pdf ⟨exSix, .scalar 1, 1, fun _ => true⟩ [fun _ => 5]).2 = .ok [.fin v] := by
  have hI : ¬ exSix.Infinite (fun _ => 5) := by
    rintro ⟨c, hc, _, h2⟩
    cases hc
    rcases h2 with h2 | h2
    · cases h2
    · have : ¬ ((5 : ℝ) ≤ 6) := of_decide_eq_false h2
      norm_num at this
  have hO : ¬ exSix.Outside false (fun _ => 5) := by rintro ⟨_, b, hb, _⟩; cases hb
  refine ⟨hI, fun i h => ?_, ?_⟩
  · have := congrFun h 0
    simp [exSix, exClip] at this
  have h := C166_where .linear one_pos cdf pdf ⟨exSix, .scalar 1, 1, fun _ => true⟩ rfl rfl (by simp [exSix, exClip]) zero_le_one rfl
    (by rintro c hc; cases hc; rfl) (fun _ => 5)
  refine h.2 fun hc => ?_
  rcases h.1.1 hc with q | q | q
  · exact hI q
  · exact hO q
  · rw [show (⟨exSix, .scalar 1, 1, fun _ => true⟩ : Surrogate 1 1).st = exSix from rfl, exSix_std] at q
    have : (1 : ℝ) < Real.sqrt (5 ^ 2 / 2) := by
      rw [Real.lt_sqrt zero_le_one]
      norm_num
    linarith

/-! ## Examples -/

/-- At 7 the classifier takes the point as infinite. -/
example (cdf pdf : ℝ → ℝ) : ((Leaf.logExp 1 none).eval cdf pdf ⟨exSix, .scalar 1, 1, fun _ => true⟩ [fun _ => 7]).2 = .ok [.negInf] :=
  (C166_where .linear one_pos cdf pdf ⟨exSix, .scalar 1, 1, fun _ => true⟩ rfl rfl (by simp [exSix, exClip]) zero_le_one rfl
    (by rintro c hc; cases hc; rfl) (fun _ => 7)).1.2 (.inl ⟨_, rfl, rfl, .inr (by simp [exSix, exClip]; norm_num)⟩)

/-- NORA with this surrogate and a sample of which the first point, 7, was evaluated to minus infinity. -/
noncomputable def exParSix : Par ℝ EReal where
  n := 3
  m := 3
  force := false
  pred x := match exSix.predict [pt 1 x] false with
    | .ok ([m], [s]) => (m, s)
    | _ => (.nan, 0)
  inB := none
  acq mu std := toV (Proposed.Kind.linear.f 1 1 1 mu std)
  cfg := { cond := fun _ _ _ => some 0, argsortDesc := exSort }
  order := List.reverse
  x0 := [0]
  a0 := 1

theorem exParSix_pred (x : List ℝ) : exSix.predict [pt 1 x] false = .ok ([(exParSix.pred x).1], [(exParSix.pred x).2]) := by
  obtain ⟨ms, ss, h⟩ := C14_returns exSix (by rintro c hc; cases hc; rfl) [pt 1 x] false
  obtain ⟨h1, h2, -⟩ := C14_predict exSix rfl rfl (by simp [exSix, exClip]) _ _ _ _ h
  match ms, ss, h1, h2 with
  | [m], [s], _, _ => simp only [exParSix, h]

example : ∃ (out : List (List ℝ)) (s' : Fin 2 → PState ℝ),
    Runs (fun r : Fin 2 => multiAdd 2 r exParSix (.ret (if r.val = 0 then some ([[7], [5]], none) else none))
      { i := 0, mc := { orig := none, re := none, isRe := false }, proposed := [] })
      (fun r => .ok (s' r, out, out.map fun x => (exParSix.pred x).1)) ∧ ∀ x ∈ out, pt 1 x ∉ [fun _ => (7 : ℝ)] :=
  C166_infinite_partial (p := 2) (by norm_num) .linear (zeta := 1) one_pos (noise := 1) zero_le_one 1 exSix rfl rfl
    (by simp [exSix, exClip]) exParSix exParSix_pred (fun _ _ => rfl) (by simp [exParSix]) (by simp [exParSix]) exSort_sorts
    (fun l => List.reverse_perm l) (by decide) (by decide)
    (fun r => .ret (if r.val = 0 then some ([[7], [5]], none) else none)) ([[7], [5]], none) (Runs.ret _)
    (fun _ => { i := 0, mc := { orig := none, re := none, isRe := false }, proposed := [] }) 0 (fun _ => rfl) [[7], [5]] []
    (.inl ⟨rfl, rfl, rfl⟩) [fun _ => 7] (by
      intro x hx
      rw [List.mem_singleton] at hx
      subst hx
      exact ⟨_, rfl, rfl, .inr (by simp [exSix, exClip]; norm_num)⟩)

/-- **C166** is false: NORA proposes the point 5, the only one of its sample, though the point was evaluated before (to minus infinity). -/
theorem C166_nora_infinite_counterexample : ∃ (s' : Fin 2 → PState ℝ),
    Runs (fun r : Fin 2 => multiAdd 2 r exParSix (.ret (if r.val = 0 then some ([[5]], none) else none))
      { i := 0, mc := { orig := none, re := none, isRe := false }, proposed := [] })
      (fun r => .ok (s' r, [[5]], [(exParSix.pred [5]).1])) := by
  obtain ⟨out, s', h1, h2, -, h4⟩ := C164_nora (p := 2) (by norm_num) .linear (zeta := 1) one_pos (noise := 1) zero_le_one 1 exSix rfl rfl
    (by simp [exSix, exClip]) exParSix exParSix_pred (fun _ _ => rfl) (by simp [exParSix]) (by simp [exParSix]) exSort_sorts
    (fun l => List.reverse_perm l) (by decide) (by decide)
    (fun r => .ret (if r.val = 0 then some ([[5]], none) else none)) ([[5]], none) (Runs.ret _)
    (fun _ => { i := 0, mc := { orig := none, re := none, isRe := false }, proposed := [] }) 0 (fun _ => rfl) [[5]] []
    (.inl ⟨rfl, rfl, rfl⟩)
  have e5 : pt 1 [5] = fun _ => (5 : ℝ) := by funext j; simp [pt, Fin.fin_one_eq_zero j]
  have hI := (C166_infinite_counterexample id id).1
  have hO : ¬ exSix.Outside false (fun _ => 5) := by rintro ⟨_, b, hb, _⟩; cases hb
  have hstd : (exParSix.pred [5]).2 = Real.sqrt (5 ^ 2 / 2) := by
    obtain ⟨-, -, h3⟩ := C14_predict exSix rfl rfl (by simp [exSix, exClip]) _ _ _ _ (exParSix_pred [5])
    obtain ⟨-, -, -, -, f⟩ := h3 0 (by simp) (by simp) (by simp)
    simp only [List.getElem_cons_zero] at f
    rw [e5] at f
    rw [f hI, exSix_std]
  have hne : out ≠ [] := h4 ⟨[5], by simp [candidates], by rw [e5]; exact hI, by rw [e5]; exact hO, by
    rw [hstd, Real.lt_sqrt zero_le_one]
    norm_num⟩
  have ho : out = [[5]] := by
    simp only [candidates, List.length_nil, if_true] at h2
    obtain ⟨l, hl, hs⟩ := h2
    have hs' := List.sublist_singleton.1 hs
    rcases hs' with rfl | rfl
    · exact absurd (List.nil_perm.1 hl) hne
    · exact List.singleton_perm.1 hl |>.symm ▸ rfl
  subst ho
  exact ⟨s', h1⟩

end GPry.Again
