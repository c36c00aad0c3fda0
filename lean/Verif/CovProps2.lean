import Mathlib.Algebra.Order.Ring.Rat
import Verif.CovProps
import Verif.ConvProps
import Verif.SpmdProps

set_option linter.all false

namespace GPry.Cov

section
variable {K : Type*} [Field K] [LinearOrder K] [IsStrictOrderedRing K] {d : ℕ}

/-! ## Repeated points -/

/-- Every point as many times as its (integer) weight. -/
def repeated {A : Type*} : List ℕ → List A → List A
  | n :: ns, x :: xs => List.replicate n x ++ repeated ns xs
  | _, _ => []

theorem repeated_sum {A : Type*} (f : A → K) (ns : List ℕ) (xs : List A) (h : ns.length = xs.length) :
    ((repeated ns xs).map f).sum = (((ns.map (Nat.cast : ℕ → K)).zip xs).map fun q => q.1 * f q.2).sum := by
  induction ns generalizing xs with
  | nil => simp [repeated]
  | cons n ns ih =>
    cases xs with
    | nil => simp at h
    | cons x xs => simp [repeated, ih xs (by simpa using h)]

theorem repeated_length {A : Type*} (ns : List ℕ) (xs : List A) (h : ns.length = xs.length) :
    (repeated ns xs).length = ns.sum := by
  induction ns generalizing xs with
  | nil => simp [repeated]
  | cons n ns ih =>
    cases xs with
    | nil => simp at h
    | cons x xs => simp [repeated, ih xs (by simpa using h)]

theorem cast_sum (ns : List ℕ) : (ns.map (Nat.cast : ℕ → K)).sum = (ns.sum : K) := by
  induction ns with
  | nil => simp
  | cons n ns ih => rw [List.map_cons, List.sum_cons, List.sum_cons, ih, Nat.cast_add]

/-- C104: integer weights (number of repetitions in a chain) give the mean of the chain with the points repeated, but
a covariance normalised by `W - Σ wᵢ²/W`, not by `W - 1`. -/
theorem C104_repeated (X : List (Fin d → K)) (ns : List ℕ) (hl : ns.length = X.length)
    (h2 : 2 ≤ ((ns.map (Nat.cast : ℕ → K)).filter fun a => decide (0 < a)).length) :
    ∃ r r' : MeanCov d K, fromSamples X (some (ns.map Nat.cast)) = .ok r ∧ fromSamples (repeated ns X) none = .ok r' ∧
      r.mean = r'.mean ∧ ∀ i j, ∃ c c' : K, r.cov.val i j = .fin c ∧ r'.cov.val i j = .fin c' ∧
        c * ((ns.sum : K) - ((ns.map fun n => n * n).sum : ℕ) / (ns.sum : K)) = c' * ((ns.sum : K) - 1) ∧
        (i = j → c' ≤ c) := by
  have hl' : (ns.map (Nat.cast : ℕ → K)).length = X.length := by simpa using hl
  have hp : ∀ a ∈ ns.map (Nat.cast : ℕ → K), 0 ≤ a := by
    intro a ha; obtain ⟨n, _, rfl⟩ := List.mem_map.1 ha; exact Nat.cast_nonneg n
  have hz := zip_nonneg _ X hp
  have hlen : (((ns.map (Nat.cast : ℕ → K)).zip X).filter fun q => decide (0 < q.1)).length
      = ((ns.map (Nat.cast : ℕ → K)).filter fun a => decide (0 < a)).length := by
    conv_rhs => rw [← zip_fst _ X hl', List.filter_map, List.length_map]
    rfl
  obtain ⟨hw, hf⟩ := fact_pos _ hz (by rw [hlen]; exact h2)
  have hwn : wsum ((ns.map (Nat.cast : ℕ → K)).zip X) = (ns.sum : K) := by
    rw [wsum, zip_sum _ X hl', cast_sum]
  have hw2 : wsum2 ((ns.map (Nat.cast : ℕ → K)).zip X) = (((ns.map fun n => n * n).sum : ℕ) : K) := by
    rw [wsum2, zip_sum2 _ X hl', ← cast_sum]
    simp [Function.comp_def]
  have hs0 : (ns.map (Nat.cast : ℕ → K)).sum ≠ 0 := by rw [cast_sum, ← hwn]; exact hw.ne'
  have hN : 0 < ns.sum := by
    rw [hwn] at hw; exact_mod_cast hw
  have hrl := repeated_length ns X hl
  have hrn : repeated ns X ≠ [] := by
    intro h; rw [h] at hrl; simp at hrl; omega
  have sumeq : ∀ f : (Fin d → K) → K, (((repeated ns X).map fun x => ((1 : K), x)).map fun q => q.1 * f q.2).sum =
      (((ns.map (Nat.cast : ℕ → K)).zip X).map fun q => q.1 * f q.2).sum := by
    intro f
    rw [← repeated_sum f ns X hl, List.map_map]
    simp [Function.comp_def]
  have hw1 : wsum ((repeated ns X).map fun x => ((1 : K), x)) = (ns.sum : K) := by
    simp [wsum, Function.comp_def, hrl]
  have hm : ∀ i, wmean ((repeated ns X).map fun x => ((1 : K), x)) i = wmean ((ns.map (Nat.cast : ℕ → K)).zip X) i := by
    intro i
    rw [wmean, wmean, hw1, hwn, sumeq fun x => x i]
  have hsc : ∀ i j, scatter ((repeated ns X).map fun x => ((1 : K), x)) i j = scatter ((ns.map (Nat.cast : ℕ → K)).zip X) i j := by
    intro i j
    rw [scatter, scatter]
    simp only [hm]
    have := sumeq fun x => (x i - wmean ((ns.map (Nat.cast : ℕ → K)).zip X) i) * (x j - wmean ((ns.map (Nat.cast : ℕ → K)).zip X) j)
    simpa only [mul_assoc] using this
  -- the sum of the squares is not smaller than the sum
  have hge : ns.sum ≤ (ns.map fun n => n * n).sum := by
    clear * -
    induction ns with
    | nil => simp
    | cons n ns ih =>
      simp only [List.sum_cons, List.map_cons]
      have : n ≤ n * n := by nlinarith [Nat.zero_le n, sq_nonneg ((n : ℤ) - 1), Nat.le_mul_self n]
      omega
  have hN2 : 1 ≤ (((ns.map fun n => n * n).sum : ℕ) : K) / (ns.sum : K) := by
    rw [one_le_div (by exact_mod_cast hN)]
    exact_mod_cast hge
  rw [hwn, hw2] at hf
  have hf' : 0 < (ns.sum : K) - 1 := by linarith
  refine ⟨_, _, fromSamples_some X _ hl' hs0 hp, fromSamples_none _ hrn, ?_, ?_⟩
  · funext i; simp only [hm]
  · intro i j
    refine ⟨scatter ((ns.map (Nat.cast : ℕ → K)).zip X) i j / ((ns.sum : K) - ((ns.map fun n => n * n).sum : ℕ) / (ns.sum : K)),
      scatter ((ns.map (Nat.cast : ℕ → K)).zip X) i j / ((ns.sum : K) - 1), ?_, ?_, ?_, ?_⟩
    · simp only [covOf, hwn, hw2, clip_pos hf, Ext.divFin, if_neg hf.ne']
    · simp only [covOf, hsc, hrl, clip_pos hf', Ext.divFin, if_neg hf'.ne']
    · rw [div_mul_cancel₀ _ hf.ne', div_mul_cancel₀ _ hf'.ne']
    · rintro rfl
      apply div_le_div_of_nonneg_left _ hf (by linarith)
      rw [scatter]
      exact sum_nonneg' _ _ fun q hq => by
        rw [mul_assoc]; exact mul_nonneg (hz q hq) (mul_self_nonneg _)

/-! ## Change of units -/

/-- Change of units: every parameter is multiplied by a factor and shifted. -/
def units (s b : Fin d → K) (x : Fin d → K) : Fin d → K := fun i => s i * x i + b i

theorem zip_units (s b : Fin d → K) (w : List K) (X : List (Fin d → K)) :
    w.zip (X.map (units s b)) = (w.zip X).map fun q => (q.1, units s b q.2) := by
  rw [List.zip_map_right]; rfl

theorem wmean_units (s b : Fin d → K) (p : List (K × (Fin d → K))) (h : wsum p ≠ 0) (i : Fin d) :
    wmean (p.map fun q => (q.1, units s b q.2)) i = s i * wmean p i + b i := by
  have hw : wsum (p.map fun q => (q.1, units s b q.2)) = wsum p := by
    simp [wsum, Function.comp_def]
  rw [wmean, hw, div_eq_iff h, add_mul, mul_assoc, wmean_mul p h, ← sum_mul_left']
  have : b i * wsum p = (p.map fun q => b i * q.1).sum := by rw [sum_mul_left']; rfl
  rw [this, ← sum_add', List.map_map]
  congr 1
  apply List.map_congr_left
  intro q _
  simp [units]; ring

theorem scatter_units (s b : Fin d → K) (p : List (K × (Fin d → K))) (h : wsum p ≠ 0) (i j : Fin d) :
    scatter (p.map fun q => (q.1, units s b q.2)) i j = s i * s j * scatter p i j := by
  rw [scatter, scatter, ← sum_mul_left', List.map_map]
  congr 1
  apply List.map_congr_left
  intro q _
  simp [units, wmean_units s b p h]; ring

/-- C104: a change of units of the parameters changes mean and covariance accordingly. -/
theorem C104_units {X : List (Fin d → K)} {w : List K} {r : MeanCov d K} (s b : Fin d → K)
    (h : fromSamples X (some w) = .ok r) (h2 : 2 ≤ (w.filter fun a => decide (0 < a)).length) :
    ∃ r', fromSamples (X.map (units s b)) (some w) = .ok r' ∧
      (∀ i m, r.mean i = .fin m → r'.mean i = .fin (s i * m + b i)) ∧
      ∀ i j c, r.cov.val i j = .fin c → r'.cov.val i j = .fin (s i * s j * c) := by
  obtain ⟨hl, h0, hp⟩ := ok_data h
  have hw : wsum (w.zip X) ≠ 0 := by rwa [wsum, zip_sum w X hl]
  have hlen : ((w.zip X).filter fun q => decide (0 < q.1)).length = (w.filter fun a => decide (0 < a)).length := by
    conv_rhs => rw [← zip_fst w X hl, List.filter_map, List.length_map]
    rfl
  have hf := (fact_pos _ (zip_nonneg w X hp) (by rw [hlen]; exact h2)).2
  rw [fromSamples_some X w hl h0 hp] at h
  cases h
  refine ⟨_, fromSamples_some _ w (by simpa using hl) h0 hp, ?_, ?_⟩
  · intro i m hm
    simp only [Ext.fin.injEq] at hm
    show Ext.fin (wmean (w.zip (X.map (units s b))) i) = _
    rw [zip_units, wmean_units s b _ hw, hm]
  · intro i j c hc
    have e1 : wsum (w.zip (X.map (units s b))) = wsum (w.zip X) := by
      rw [zip_units]; simp [wsum, Function.comp_def]
    have e2 : wsum2 (w.zip (X.map (units s b))) = wsum2 (w.zip X) := by
      rw [zip_units]; simp [wsum2, Function.comp_def]
    simp only [covOf, clip_pos hf, Ext.divFin, if_neg hf.ne', Ext.fin.injEq] at hc
    simp only [covOf, e1, e2, clip_pos hf, Ext.divFin, if_neg hf.ne', Ext.fin.injEq]
    rw [zip_units, scatter_units s b _ hw, ← hc, mul_div_assoc]

/-! ## Training set -/

/-- a number or `-inf` -/
def NotPos : Ext K → Prop
  | .fin _ => True
  | .negInf => True
  | _ => False

theorem pyMax_good (l : List (Ext K)) (hg : ∀ y ∈ l, NotPos y) (hf : ∃ x, Ext.fin x ∈ l) :
    ∃ M, Ext.pyMax l = some (.fin M) ∧ Ext.fin M ∈ l ∧ ∀ x, Ext.fin x ∈ l → x ≤ M := by
  have step : ∀ (l : List (Ext K)) (a : Ext K), NotPos a → (∀ y ∈ l, NotPos y) →
      NotPos (l.foldl Ext.pyMax2 a) ∧ (l.foldl Ext.pyMax2 a ∈ a :: l) ∧
        ∀ x, Ext.fin x ∈ a :: l → ∃ M, l.foldl Ext.pyMax2 a = .fin M ∧ x ≤ M := by
    intro l
    induction l with
    | nil =>
      intro a ha _
      refine ⟨ha, by simp, fun x hx => ?_⟩
      simp only [List.mem_singleton] at hx
      exact ⟨x, by simp [← hx], le_refl x⟩
    | cons b l ih =>
      intro a ha hb
      have hb1 := hb b (by simp)
      have hb2 : ∀ y ∈ l, NotPos y := fun y hy => hb y (by simp [hy])
      have hc : NotPos (Ext.pyMax2 a b) := by
        unfold Ext.pyMax2; split_ifs <;> assumption
      obtain ⟨i1, i2, i3⟩ := ih (Ext.pyMax2 a b) hc hb2
      refine ⟨i1, ?_, ?_⟩
      · rw [List.foldl_cons]
        have hmem : Ext.pyMax2 a b ∈ [a, b] := by unfold Ext.pyMax2; split_ifs <;> simp
        rcases List.mem_cons.1 i2 with h | h
        · rw [h]; simp at hmem ⊢; rcases hmem with h | h <;> simp [h]
        · simp [h]
      · intro x hx
        rw [List.foldl_cons]
        by_cases hx1 : Ext.fin x ∈ l
        · exact i3 x (by simp [hx1])
        · have hx2 : Ext.fin x = a ∨ Ext.fin x = b := by
            simp only [List.mem_cons] at hx; tauto
          have : ∃ y, Ext.pyMax2 a b = .fin y ∧ x ≤ y := by
            rcases a with _ | a | _ | _ <;> rcases b with _ | b | _ | _ <;> simp only [NotPos] at ha hb1 <;>
              simp [Ext.pyMax2, Ext.gt, Ext.lt] at hx2 ⊢
            · exact hx2.le
            · exact hx2.le
            · split_ifs with hlt
              · refine ⟨b, rfl, ?_⟩; rcases hx2 with rfl | rfl; exacts [hlt.le, le_rfl]
              · refine ⟨a, rfl, ?_⟩; rcases hx2 with rfl | rfl; exacts [le_rfl, not_lt.1 hlt]
          obtain ⟨y, hy, hxy⟩ := this
          obtain ⟨M, hM, hyM⟩ := i3 y (by simp [hy])
          exact ⟨M, hM, hxy.trans hyM⟩
  cases l with
  | nil => simp at hf
  | cons a l =>
    obtain ⟨i1, i2, i3⟩ := step l a (hg a (by simp)) fun y hy => hg y (by simp [hy])
    obtain ⟨x, hx⟩ := hf
    obtain ⟨M, hM, _⟩ := i3 x hx
    refine ⟨M, by simp [Ext.pyMax, hM], by rw [hM] at i2; exact i2, fun y hy => ?_⟩
    obtain ⟨M', hM', hle⟩ := i3 y hy
    rw [hM] at hM'; cases hM'; exact hle

/-- weight of a value -/
def wt (ex : K → K) (M : K) : Ext K → K
  | .fin x => ex (x - M)
  | _ => 0

theorem expE_sub (ex : K → K) (M : K) (l : Ext K) (h : NotPos l) : expE ex (Ext.sub l (.fin M)) = .fin (wt ex M l) := by
  rcases l with _ | x | _ | _ <;> simp [NotPos, Ext.sub, expE, wt] at *

theorem finites_map (l : List K) : finites (l.map Ext.fin) = some l := by
  induction l with
  | nil => rfl
  | cons a l ih => simp [finites, ih]

theorem zero_ext : (0 : Ext K) = .fin 0 := rfl

theorem filter_fin (l : List K) : (l.map Ext.fin).filter (fun a => decide (a ≠ 0)) = (l.filter fun a => decide (a ≠ 0)).map Ext.fin := by
  rw [List.filter_map]
  congr 1
  apply List.filter_congr
  intro a _
  simp [zero_ext]

theorem deleteZero_fin {A : Type*} (l : List K) (X : List A) : deleteZero (l.map Ext.fin) X = deleteZero l X := by
  rw [deleteZero, deleteZero, List.zip_map_left, List.filter_map, List.map_map]
  have : ((fun q : Ext K × A => decide (q.1 ≠ 0)) ∘ Prod.map Ext.fin id) = fun q : K × A => decide (q.1 ≠ 0) := by
    funext q; simp [zero_ext]
  rw [this]
  rfl

/-- The result for a training set with numbers or `-inf`, at least one of them a number. -/
theorem fromEvals_eq (ex : K → K) (X : List (Fin d → K)) (logp : List (Ext K)) (hl : logp.length = X.length)
    (hg : ∀ y ∈ logp, NotPos y) (hex : ∀ x, 0 ≤ ex x) (hex0 : 0 < ex 0) {M : K} (hM : Ext.pyMax logp = some (.fin M))
    (hmem : Ext.fin M ∈ logp) :
    0 < (logp.map (wt ex M)).sum ∧ (∀ a ∈ logp.map (wt ex M), 0 ≤ a) ∧
    fromEvals ex X logp = .ok ⟨fun i => .fin (wmean ((logp.map (wt ex M)).zip X) i),
      covOf ((logp.map (wt ex M)).zip X) (logp.map (wt ex M)).sum⟩ := by
  have hnn : ∀ a ∈ logp.map (wt ex M), 0 ≤ a := by
    intro a ha
    obtain ⟨y, _, rfl⟩ := List.mem_map.1 ha
    rcases y with _ | x | _ | _ <;> simp [wt, hex]
  have hpos : 0 < (logp.map (wt ex M)).sum := by
    have : wt ex M (.fin M) ≤ (logp.map (wt ex M)).sum := List.single_le_sum hnn _ (List.mem_map.2 ⟨_, hmem, rfl⟩)
    simp [wt] at this
    linarith
  refine ⟨hpos, hnn, ?_⟩
  have hw : (logp.map fun l => expE ex (Ext.sub l (.fin M))) = (logp.map (wt ex M)).map Ext.fin := by
    rw [List.map_map]
    exact List.map_congr_left fun l hl => expE_sub ex M l (hg l hl)
  set ws := logp.map (wt ex M) with hws
  have hlw : ws.length = X.length := by simp [hws, hl]
  have hlw' : (ws.map Ext.fin).length = X.length := by simpa using hlw
  have fl := filter_len ws X hlw
  have fs := filter_sum ws
  have fz := filter_zip ws X hlw
  have ff := filter_fin ws
  simp only [ne_eq] at fl fs fz ff
  have e1 : ((ws.filter fun a => decide (¬ a = 0)).any fun a => decide (a < 0)) = false := by
    rw [any_neg]; exact fun a ha => hnn a (List.mem_filter.1 ha).1
  simp only [fromEvals, hM, hw, removeZero, deleteAll, hlw', ne_eq, not_true_eq_false, if_false, deleteZero_fin]
  rw [ff]
  simp only [fromWeights, finites_map, average, npCov, fl, fs, hpos.ne', e1, ne_eq, not_true_eq_false, if_false,
    Bool.false_eq_true, if_true]
  rw [fz]
  have a3 := wmean_filter (ws.zip X)
  have a4 := scatter_filter (ws.zip X)
  simp only [ne_eq] at a3 a4
  simp only [covOf, a3, a4]

/-- C104: for a training set of numbers or `-inf` (at least one number), mean and covariance are obtained; the mean is
within the bounds of the points that are not `-inf`; the covariance is finite, symmetric and positive semidefinite.
`ex` is any approximation of the exponential that is not negative, and positive at 0. -/
theorem C104_evals (ex : K → K) (X : List (Fin d → K)) (logp : List (Ext K)) (hl : logp.length = X.length)
    (hg : ∀ y ∈ logp, NotPos y) (hf : ∃ x, Ext.fin x ∈ logp) (hex : ∀ x, 0 ≤ ex x) (hex0 : 0 < ex 0) :
    ∃ r, fromEvals ex X logp = .ok r ∧ IsCov r.cov.val ∧
      ∀ (i : Fin d) (a b : K), (∀ (k : ℕ) (x : Fin d → K) (y : K), X[k]? = some x → logp[k]? = some (.fin y) → a ≤ x i ∧ x i ≤ b) →
        ∃ m, r.mean i = .fin m ∧ a ≤ m ∧ m ≤ b := by
  obtain ⟨M, hM, hmem, _⟩ := pyMax_good logp hg hf
  obtain ⟨hpos, hnn, he⟩ := fromEvals_eq ex X logp hl hg hex hex0 hM hmem
  have hlw : (logp.map (wt ex M)).length = X.length := by simpa using hl
  refine ⟨_, he, covOf_isCov _ (zip_nonneg _ X hnn) hpos, ?_⟩
  intro i a b hb
  refine ⟨_, rfl, wmean_bounds _ (ok_zip X _ hlw hpos.ne' hnn) i a b ?_⟩
  intro q hq hq0
  obtain ⟨k, hk⟩ := List.mem_iff_getElem?.1 hq
  rw [List.getElem?_zip_eq_some] at hk
  obtain ⟨h1, h2⟩ := hk
  rw [List.getElem?_map] at h1
  cases hy : logp[k]? with
  | none => simp [hy] at h1
  | some y =>
    rw [hy] at h1
    simp only [Option.map_some, Option.some.injEq] at h1
    rcases y with _ | y | _ | _
    · simp [wt] at h1; linarith
    · exact hb k q.2 y h2 hy
    · simp [wt] at h1; linarith
    · simp [wt] at h1; linarith

theorem sub_addFin (l m : Ext K) (c : K) : Ext.sub (l.addFin c) (m.addFin c) = Ext.sub l m := by
  rcases l with _ | l | _ | _ <;> rcases m with _ | m | _ | _ <;> simp [Ext.sub, Ext.addFin]

theorem gt_addFin (a b : Ext K) (c : K) : Ext.gt (a.addFin c) (b.addFin c) = Ext.gt a b := by
  rcases a with _ | a | _ | _ <;> rcases b with _ | b | _ | _ <;> simp [Ext.gt, Ext.lt, Ext.addFin]

theorem pyMax_addFin (l : List (Ext K)) (c : K) : Ext.pyMax (l.map (·.addFin c)) = (Ext.pyMax l).map (·.addFin c) := by
  cases l with
  | nil => rfl
  | cons a l =>
    simp only [List.map_cons, Ext.pyMax, Option.map_some, Option.some.injEq]
    induction l generalizing a with
    | nil => rfl
    | cons b l ih =>
      simp only [List.map_cons, List.foldl_cons]
      have : Ext.pyMax2 (a.addFin c) (b.addFin c) = (Ext.pyMax2 a b).addFin c := by
        unfold Ext.pyMax2
        rw [gt_addFin]
        split_ifs <;> rfl
      rw [this]
      exact ih _

/-- C104: a constant added to all log-posteriors (a different normalisation of the posterior) changes nothing. -/
theorem C104_evals_shift (ex : K → K) (X : List (Fin d → K)) (logp : List (Ext K)) (c : K) :
    fromEvals ex X (logp.map (·.addFin c)) = fromEvals ex X logp := by
  unfold fromEvals
  rw [pyMax_addFin]
  cases Ext.pyMax logp with
  | none => rfl
  | some m =>
    have : ((logp.map (·.addFin c)).map fun l => expE ex (Ext.sub l (m.addFin c))) = logp.map fun l => expE ex (Ext.sub l m) := by
      rw [List.map_map]
      apply List.map_congr_left
      intro l _
      simp only [Function.comp, sub_addFin]
    simp only [Option.map_some, this]

/-- The training set without the points with `-inf`. -/
def finiteOnly {A : Type*} (logp : List (Ext K)) (X : List A) : List (Ext K × A) :=
  (logp.zip X).filter fun q => decide (q.1 ≠ .negInf)

/-- C104: points with log-posterior `-inf` count for nothing. -/
theorem C104_evals_neginf (ex : K → K) (X : List (Fin d → K)) (logp : List (Ext K)) (hl : logp.length = X.length)
    (hg : ∀ y ∈ logp, NotPos y) (hf : ∃ x, Ext.fin x ∈ logp) (hex : ∀ x, 0 ≤ ex x) (hex0 : 0 < ex 0) :
    fromEvals ex ((finiteOnly logp X).map Prod.snd) ((finiteOnly logp X).map Prod.fst) = fromEvals ex X logp := by
  have hz1 : (logp.zip X).map Prod.fst = logp := List.map_fst_zip (by omega)
  have mem : ∀ y, y ∈ (finiteOnly logp X).map Prod.fst ↔ y ∈ logp ∧ y ≠ .negInf := by
    intro y
    have : (finiteOnly logp X).map Prod.fst = logp.filter fun a => decide (a ≠ .negInf) := by
      conv_rhs => rw [← hz1, List.filter_map]
      rfl
    rw [this, List.mem_filter]
    simp
  obtain ⟨M, hM, hmem, hle⟩ := pyMax_good logp hg hf
  obtain ⟨M', hM', hmem', hle'⟩ := pyMax_good ((finiteOnly logp X).map Prod.fst) (fun y hy => hg y ((mem y).1 hy).1)
    (by obtain ⟨x, hx⟩ := hf; exact ⟨x, (mem _).2 ⟨hx, by simp⟩⟩)
  have : M' = M := le_antisymm (hle M' ((mem _).1 hmem').1) (hle' M ((mem _).2 ⟨hmem, by simp⟩))
  subst this
  obtain ⟨_, _, he⟩ := fromEvals_eq ex X logp hl hg hex hex0 hM hmem
  obtain ⟨_, _, he'⟩ := fromEvals_eq ex ((finiteOnly logp X).map Prod.snd) _ (by simp) (fun y hy => hg y ((mem y).1 hy).1)
    hex hex0 hM' hmem'
  rw [he, he']
  -- every sum over the points is the same
  have hp : ((logp.map (wt ex M')).zip X) = (logp.zip X).map fun q => (wt ex M' q.1, q.2) := by
    rw [List.zip_map_left]; rfl
  have hp' : (((finiteOnly logp X).map Prod.fst).map (wt ex M')).zip ((finiteOnly logp X).map Prod.snd) =
      (finiteOnly logp X).map fun q => (wt ex M' q.1, q.2) := by
    rw [List.map_map, List.zip_map']; rfl
  have key : ∀ f : K × (Fin d → K) → K, (∀ q, q.1 = 0 → f q = 0) →
      (((finiteOnly logp X).map fun q => (wt ex M' q.1, q.2)).map f).sum = (((logp.zip X).map fun q => (wt ex M' q.1, q.2)).map f).sum := by
    intro f hf0
    rw [List.map_map, List.map_map, finiteOnly]
    apply sum_filter'
    intro q _ hq
    simp at hq
    exact hf0 _ (by simp [hq, wt])
  have k1 : wsum ((finiteOnly logp X).map fun q => (wt ex M' q.1, q.2)) = wsum ((logp.zip X).map fun q => (wt ex M' q.1, q.2)) :=
    key Prod.fst fun q h => h
  have k2 : ∀ i, wmean ((finiteOnly logp X).map fun q => (wt ex M' q.1, q.2)) i = wmean ((logp.zip X).map fun q => (wt ex M' q.1, q.2)) i := by
    intro i
    rw [wmean, wmean, k1, key (fun q => q.1 * q.2 i) (by intro q h; simp [h])]
  have k3 : ∀ i j, scatter ((finiteOnly logp X).map fun q => (wt ex M' q.1, q.2)) i j = scatter ((logp.zip X).map fun q => (wt ex M' q.1, q.2)) i j := by
    intro i j
    rw [scatter, scatter]
    simp only [k2]
    exact key (fun q => q.1 * (q.2 i - wmean ((logp.zip X).map fun q => (wt ex M' q.1, q.2)) i) *
      (q.2 j - wmean ((logp.zip X).map fun q => (wt ex M' q.1, q.2)) j)) (by intro q h; simp [h])
  have s1 : (logp.map (wt ex M')).sum = wsum ((logp.zip X).map fun q => (wt ex M' q.1, q.2)) := by
    rw [← hp, wsum, zip_sum _ X (by simpa using hl)]
  have s2 : (((finiteOnly logp X).map Prod.fst).map (wt ex M')).sum = wsum ((finiteOnly logp X).map fun q => (wt ex M' q.1, q.2)) := by
    rw [← hp', wsum, zip_sum _ _ (by simp)]
  rw [hp, hp', s1, s2, k1]
  simp only [covOf, k2, k3]

/-- C104: if all log-posteriors are `-inf`, there is no exception, and all entries of mean and covariance are NaN. -/
theorem C104_evals_all_infinite_counterexample (ex : K → K) (x : Fin d → K) (X : List (Fin d → K)) :
    fromEvals ex (x :: X) (List.replicate (X.length + 1) .negInf) = .ok allNan := by
  have hm : ∀ n, Ext.pyMax (List.replicate (n + 1) (Ext.negInf : Ext K)) = some .negInf := by
    intro n
    simp only [List.replicate_succ, Ext.pyMax, Option.some.injEq]
    induction n with
    | zero => rfl
    | succ n ih => simpa [List.replicate_succ, Ext.pyMax2, Ext.gt, Ext.lt] using ih
  simp only [fromEvals, hm]
  simp [removeZero, deleteAll, Ext.sub, expE, zero_ext, fromWeights, List.replicate_succ, finites]

end

/-! ## Examples -/

/-- three points in two dimensions -/
def exX : List (Fin 2 → ℚ) := [![0, 0], ![1, 2], ![3, 1]]

example : ∃ r, fromSamples exX (some [2, 0, 1]) = .ok r ∧ r.mean 0 = .fin 1 ∧ r.cov.val 0 1 = .fin (3 / 2) := by
  refine ⟨_, fromSamples_some exX [2, 0, 1] rfl (by decide +kernel) (by decide +kernel), ?_, ?_⟩ <;> decide +kernel

/-- C104: the weights of a chain are not taken as repetitions. -/
theorem C104_repeated_counterexample : ∃ (X : List (Fin 2 → ℚ)) (ns : List ℕ) (r r' : MeanCov 2 ℚ),
    fromSamples X (some (ns.map Nat.cast)) = .ok r ∧ fromSamples (repeated ns X) none = .ok r' ∧
      r.cov.val 0 0 = .fin (1 / 2) ∧ r'.cov.val 0 0 = .fin (1 / 3) := by
  refine ⟨[![0, 0], ![1, 2]], [2, 2], _, _, fromSamples_some _ _ rfl (by decide +kernel) (by decide +kernel),
    fromSamples_none _ (by decide), ?_, ?_⟩ <;> decide +kernel

example : (2 : ℕ) ≤ (([2, 2] : List ℕ).map (Nat.cast : ℕ → ℚ) |>.filter fun a => decide (0 < a)).length := by decide +kernel

/-- a crude exponential -/
def exExp (x : ℚ) : ℚ := if x < -700 then 0 else 1 / (1 + x * x)

example : (∀ x, 0 ≤ exExp x) ∧ 0 < exExp 0 := by
  constructor
  · intro x; unfold exExp; split_ifs
    · exact le_refl 0
    · have := mul_self_nonneg x; positivity
  · decide +kernel

example : ∃ r, fromEvals exExp exX [.fin 5, .negInf, .fin 6] = .ok r ∧ r.mean 0 = .fin 2 ∧ r.mean 1 = .fin (2 / 3) := by
  obtain ⟨_, _, he⟩ := fromEvals_eq exExp exX [.fin 5, .negInf, .fin 6] rfl (by simp [NotPos])
    (by intro x; unfold exExp; split_ifs; exacts [le_refl 0, by have := mul_self_nonneg x; positivity])
    (by decide +kernel) (M := 6) (by decide +kernel) (by simp)
  exact ⟨_, he, by decide +kernel, by decide +kernel⟩

/-- Two samples with integer weights 2 and 1: the same mean as with the first point written twice, a larger variance. -/
example : ∃ r r' : MeanCov 2 ℚ, fromSamples [![0, 0], ![3, 1]] (some [2, 1]) = .ok r ∧
    fromSamples [![0, 0], ![0, 0], ![3, 1]] none = .ok r' ∧ r.mean = r'.mean := by
  obtain ⟨r, r', h, h', hm, -⟩ := C104_repeated (K := ℚ) [![0, 0], ![3, 1]] [2, 1] rfl (by decide +kernel)
  exact ⟨r, r', by simpa using h, h', hm⟩

/-- The same points in other units. -/
example : ∃ r', fromSamples (exX.map (units ![2, 1] ![5, 0])) (some [2, 0, 1]) = .ok r' ∧ r'.mean 0 = .fin 7 ∧ r'.cov.val 0 1 = .fin 3 := by
  have h := fromSamples_some exX [2, 0, 1] rfl (by decide +kernel) (by decide +kernel)
  obtain ⟨r', h', hm, hc⟩ := C104_units ![2, 1] ![5, 0] h (by decide +kernel)
  refine ⟨r', h', ?_, ?_⟩
  · have := hm 0 1 (by decide +kernel)
    rw [this]; decide +kernel
  · have := hc 0 1 (3 / 2) (by decide +kernel)
    rw [this]; decide +kernel

theorem exExp_nonneg (x : ℚ) : 0 ≤ exExp x := by
  unfold exExp; split_ifs
  · exact le_refl 0
  · have := mul_self_nonneg x; positivity

example : expE exExp (Ext.sub (.fin 5) (.fin 6)) = .fin (1 / 2) := by
  rw [expE_sub exExp 6 (.fin 5) trivial]; decide +kernel

/-- The mean from evaluations lies between the points where the log-posterior is finite: the second point does not count. -/
example : ∃ r m, fromEvals exExp [![0, 0], ![100, 2], ![3, 1]] [.fin 5, .negInf, .fin 6] = .ok r ∧ r.mean 0 = .fin m ∧ 0 ≤ m ∧ m ≤ 3 := by
  obtain ⟨r, h, -, hb⟩ := C104_evals exExp [![0, 0], ![100, 2], ![3, 1]] [.fin 5, .negInf, .fin 6] rfl (by simp [NotPos]) ⟨5, by simp⟩
    exExp_nonneg (by decide +kernel)
  obtain ⟨m, hm, h0, h1⟩ := hb 0 0 3 (by
    intro k x y hx hy
    rcases k with _ | _ | _ | k
    · simp at hx; subst hx; simp
    · simp at hy
    · simp at hx; subst hx; simp
    · simp at hx)
  exact ⟨r, m, h, hm, h0, h1⟩

example : fromEvals exExp exX [.fin 1005, .negInf, .fin 1006] = fromEvals exExp exX [.fin 5, .negInf, .fin 6] := by
  rw [← C104_evals_shift exExp exX [.fin 5, .negInf, .fin 6] 1000]
  simp only [List.map_cons, List.map_nil, Ext.addFin]; norm_num

example : fromEvals exExp [![0, 0], ![3, 1]] [.fin 5, .fin 6] = fromEvals exExp exX [.fin 5, .negInf, .fin 6] := by
  rw [← C104_evals_neginf exExp exX [.fin 5, .negInf, .fin 6] rfl (by simp [NotPos]) ⟨5, by simp⟩ exExp_nonneg (by decide +kernel)]
  rfl

end GPry.Cov
