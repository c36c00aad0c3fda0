import Verif.Acq
import Verif.PredictGrad
import Mathlib.Analysis.SpecialFunctions.Log.Deriv

set_option linter.all false

namespace GPry.Acq

open Predict Kernels

/-! ## C50: values of LogExp -/

theorem scatter_zip {A B C : Type*} (f : A → B → C) (w : C) (p : A → B → Bool) : ∀ (xs : List A) (ys : List B), xs.length = ys.length →
    scatter (List.zipWith p xs ys) (List.zipWith f (maskGet (List.zipWith p xs ys) xs) (maskGet (List.zipWith p xs ys) ys))
      (ys.map fun _ => w) = List.zipWith (fun x y => if p x y then f x y else w) xs ys
  | [], [], _ => rfl
  | x :: xs, y :: ys, h => by
    have ih := scatter_zip f w p xs ys (by simpa using h)
    simp only [List.zipWith_cons_cons, List.map_cons]
    cases hp : p x y with
    | true => rw [maskGet, maskGet, List.zipWith_cons_cons, scatter, ih]; simp
    | false => rw [maskGet, maskGet, scatter, ih]; simp

theorem maskSet_zip {A B C : Type*} (g : A → B → C) (v : C) (p : A → B → Bool) : ∀ (xs : List A) (ys : List B),
    maskSet v ((List.zipWith p xs ys).map not) (List.zipWith g xs ys) =
      List.zipWith (fun x y => if p x y then g x y else v) xs ys
  | [], ys => by simp [maskSet]
  | x :: xs, [] => by simp [maskSet]
  | x :: xs, y :: ys => by
    have ih := maskSet_zip g v p xs ys
    simp only [List.zipWith_cons_cons, List.map_cons]
    rw [maskSet, ih]
    cases p x y <;> simp

/-- One value. -/
noncomputable def logExp1 (zeta noise baseline : ℝ) (mu : Ext ℝ) (std : ℝ) : Ext ℝ :=
  match mu with
  | .fin m => if noise ^ 2 < std ^ 2 then .fin (2 * zeta * (m - baseline) + Real.log (Real.sqrt (std ^ 2 - noise ^ 2))) else .negInf
  | _ => .negInf

/-- The values of a function `f` at the points of the mask, minus infinity at the other ones. -/
theorem masked_values (p : Ext ℝ → ℝ → Bool) (f : Ext ℝ → ℝ → Ext ℝ) (mus : List (Ext ℝ)) (stds : List ℝ) (h : mus.length = stds.length) :
    (if ((List.zipWith p mus stds).map not).any id = true then maskSet .negInf ((List.zipWith p mus stds).map not)
        (if (List.zipWith p mus stds).any id = true then scatter (List.zipWith p mus stds)
          (List.zipWith f (maskGet (List.zipWith p mus stds) mus) (maskGet (List.zipWith p mus stds) stds)) (stds.map fun _ => Ext.fin 0) else stds.map fun _ => Ext.fin 0)
      else (if (List.zipWith p mus stds).any id = true then scatter (List.zipWith p mus stds)
          (List.zipWith f (maskGet (List.zipWith p mus stds) mus) (maskGet (List.zipWith p mus stds) stds)) (stds.map fun _ => Ext.fin 0) else stds.map fun _ => Ext.fin 0)) =
      List.zipWith (fun x y => if p x y then f x y else .negInf) mus stds := by
  have hval : (if (List.zipWith p mus stds).any id = true then scatter (List.zipWith p mus stds)
      (List.zipWith f (maskGet (List.zipWith p mus stds) mus) (maskGet (List.zipWith p mus stds) stds))
      (stds.map fun _ => Ext.fin 0) else stds.map fun _ => Ext.fin 0) =
      List.zipWith (fun x y => if p x y then f x y else .fin 0) mus stds := by
    split_ifs with hany
    · exact scatter_zip f (.fin 0) p mus stds h
    · have hall : ∀ b ∈ List.zipWith p mus stds, b = false := by
        intro b hb
        rw [List.any_eq_true] at hany
        cases b with
        | false => rfl
        | true => exact absurd ⟨true, hb, rfl⟩ hany
      clear hany
      induction mus generalizing stds with
      | nil => cases stds <;> simp_all
      | cons x xs ih =>
        cases stds with
        | nil => simp at h
        | cons y ys =>
          rw [List.zipWith_cons_cons] at hall
          have h1 := hall (p x y) List.mem_cons_self
          have h2 := ih ys (by simpa using h) (fun b hb => hall b (List.mem_cons_of_mem _ hb))
          rw [List.map_cons, List.zipWith_cons_cons, h2]
          simp [h1]
  rw [hval]
  split_ifs with hany
  · rw [maskSet_zip]
    congr 1
    funext x y
    cases p x y <;> simp
  · have hall : ∀ b ∈ List.zipWith p mus stds, b = true := by
      intro b hb
      rw [List.any_eq_true] at hany
      cases b with
      | true => rfl
      | false => exact absurd ⟨true, List.mem_map.2 ⟨false, hb, rfl⟩, rfl⟩ hany
    clear hany hval
    induction mus generalizing stds with
    | nil => simp
    | cons x xs ih =>
      cases stds with
      | nil => simp
      | cons y ys =>
        rw [List.zipWith_cons_cons] at hall
        have h1 := hall (p x y) List.mem_cons_self
        have h2 := ih ys (by simpa using h) (fun b hb => hall b (List.mem_cons_of_mem _ hb))
        rw [List.zipWith_cons_cons, List.zipWith_cons_cons, h2]
        simp [h1]

theorem logExpValues_eq (zeta noise baseline : ℝ) (mus : List (Ext ℝ)) (stds : List ℝ) (h : mus.length = stds.length) :
    logExpValues zeta noise baseline mus stds = List.zipWith (logExp1 zeta noise baseline) mus stds := by
  unfold logExpValues
  dsimp only
  rw [masked_values _ _ _ _ h]
  congr 1
  funext x y
  unfold logExp1 logExpEntry
  cases x with
  | fin m =>
    simp only [Ext.isFinite, Bool.and_true, decide_eq_true_eq, sub_pos]
    split_ifs with hc
    · unfold logExpF
      rw [max_eq_left (by linarith)]
    · rfl
  | negInf => simp [Ext.isFinite]
  | posInf => simp [Ext.isFinite]
  | nan => simp [Ext.isFinite]

/-- **C50**: `LogExp` is minus infinity exactly where the standard deviation does not exceed the noise or the mean is not
finite, elsewhere it is `2 ζ (μ - baseline) + log √(σ² - σₙ²)`; each point on its own. -/
theorem C50_values (zeta noise baseline : ℝ) (hn : 0 ≤ noise) (mus : List (Ext ℝ)) (stds : List ℝ) (h : mus.length = stds.length)
    (hs : ∀ s ∈ stds, 0 ≤ s) :
    (logExpValues zeta noise baseline mus stds).length = stds.length ∧
    ∀ (i : ℕ) (hm : i < mus.length) (hi : i < stds.length) (hv : i < (logExpValues zeta noise baseline mus stds).length),
      ((logExpValues zeta noise baseline mus stds)[i] = .negInf ↔ stds[i] ≤ noise ∨ ¬ ∃ m, mus[i] = .fin m) ∧
      ∀ m, mus[i] = .fin m → noise < stds[i] → (logExpValues zeta noise baseline mus stds)[i] =
        .fin (2 * zeta * (m - baseline) + Real.log (Real.sqrt (stds[i] ^ 2 - noise ^ 2))) := by
  have hlen : (logExpValues zeta noise baseline mus stds).length = stds.length := by
    rw [logExpValues_eq _ _ _ _ _ h]; simp [h]
  refine ⟨hlen, ?_⟩
  intro i hm hi hv
  have he : (logExpValues zeta noise baseline mus stds)[i] = logExp1 zeta noise baseline mus[i] stds[i] := by
    simp only [logExpValues_eq _ _ _ _ _ h, List.getElem_zipWith]
  have hlt : noise ^ 2 < stds[i] ^ 2 ↔ noise < stds[i] := by
    rw [sq_lt_sq₀ hn (hs _ (List.getElem_mem hi))]
  rw [he]
  constructor
  · cases hmu : mus[i] with
    | fin m =>
      unfold logExp1
      simp only [hlt]
      split_ifs with hc
      · simp [hc]
      · simp [not_lt.1 hc]
    | negInf => simp [logExp1]
    | posInf => simp [logExp1]
    | nan => simp [logExp1]
  · intro m hmu hc
    rw [hmu]
    unfold logExp1
    simp only [hlt, if_pos hc]

example : (logExpValues 1 1 0 [.fin 3, .negInf, .fin 2] [2, 5, 1 / 2])[2]? = some .negInf := by
  obtain ⟨hl, H⟩ := C50_values 1 1 0 (by norm_num) [.fin 3, .negInf, .fin 2] [2, 5, 1 / 2] rfl (by norm_num)
  rw [List.getElem?_eq_getElem (by rw [hl]; simp), (H 2 (by simp) (by simp) (by rw [hl]; simp)).1.2 (.inl (by norm_num))]

theorem logExp1_mean {zeta noise baseline std m m' : ℝ} (hz : 0 < zeta) (hn : 0 ≤ noise) (hs : noise < std) (h : m < m') :
    Ext.lt (logExp1 zeta noise baseline (.fin m) std) (logExp1 zeta noise baseline (.fin m') std) = true := by
  have hlt : noise ^ 2 < std ^ 2 := by rw [sq_lt_sq₀ hn (hn.trans hs.le)]; exact hs
  simp only [logExp1, if_pos hlt, Ext.lt, decide_eq_true_eq]
  have := mul_lt_mul_of_pos_left h hz
  nlinarith

theorem logExp1_std {zeta noise baseline s s' m : ℝ} (hn : 0 ≤ noise) (hs0 : 0 ≤ s) (h : s < s') :
    (noise < s' → Ext.lt (logExp1 zeta noise baseline (.fin m) s) (logExp1 zeta noise baseline (.fin m) s') = true) ∧
    (s' ≤ noise → logExp1 zeta noise baseline (.fin m) s' = .negInf ∧ logExp1 zeta noise baseline (.fin m) s = .negInf) := by
  have e : ∀ t, 0 ≤ t → (noise ^ 2 < t ^ 2 ↔ noise < t) := fun t ht => sq_lt_sq₀ hn ht
  have hs' : 0 ≤ s' := hs0.trans h.le
  constructor
  · intro hc
    unfold logExp1
    simp only [e s hs0, e s' hs', if_pos hc]
    split_ifs with h1
    · simp only [Ext.lt, decide_eq_true_eq]
      have h2 : Real.sqrt (s ^ 2 - noise ^ 2) < Real.sqrt (s' ^ 2 - noise ^ 2) := by
        apply Real.sqrt_lt_sqrt
        · have := (e s hs0).2 h1; linarith
        · have : s ^ 2 < s' ^ 2 := (sq_lt_sq₀ hs0 hs').2 h
          linarith
      have h3 : 0 < Real.sqrt (s ^ 2 - noise ^ 2) := Real.sqrt_pos.2 (by have := (e s hs0).2 h1; linarith)
      have := Real.log_lt_log h3 h2
      linarith
    · simp [Ext.lt]
  · intro hc
    unfold logExp1
    simp only [e s hs0, e s' hs']
    rw [if_neg (not_lt.2 hc), if_neg (not_lt.2 (h.le.trans hc))]
    exact ⟨rfl, rfl⟩

/-- **C50**: among the points of a call, strictly increasing in the mean (same standard deviation, above the noise), for
positive `zeta`, and strictly increasing in the standard deviation (same mean) if the larger one exceeds the noise. -/
theorem C50_increasing (zeta noise baseline : ℝ) (hz : 0 < zeta) (hn : 0 ≤ noise) (mus : List (Ext ℝ)) (stds : List ℝ)
    (h : mus.length = stds.length) (hs : ∀ s ∈ stds, 0 ≤ s) (i j : ℕ) (hi : i < mus.length) (hj : j < mus.length)
    (hi' : i < stds.length) (hj' : j < stds.length) (hvi : i < (logExpValues zeta noise baseline mus stds).length)
    (hvj : j < (logExpValues zeta noise baseline mus stds).length) (m m' : ℝ) (hm : mus[i] = .fin m) (hm' : mus[j] = .fin m')
    (hnoise : noise < stds[j]) (hor : (m < m' ∧ stds[i] = stds[j]) ∨ (m = m' ∧ stds[i] < stds[j])) :
    Ext.lt (logExpValues zeta noise baseline mus stds)[i] (logExpValues zeta noise baseline mus stds)[j] = true := by
  simp only [logExpValues_eq _ _ _ _ _ h, List.getElem_zipWith, hm, hm']
  rcases hor with ⟨h1, h2⟩ | ⟨h1, h2⟩
  · rw [h2]; exact logExp1_mean hz hn hnoise h1
  · subst h1; exact (logExp1_std hn (hs _ (List.getElem_mem hi')) h2).1 hnoise

/-- Larger standard deviation, larger value. -/
example (hv : 1 < (logExpValues 1 1 0 [.fin 3, .fin 3] [2, 5]).length) :
    Ext.lt ((logExpValues 1 1 0 [.fin 3, .fin 3] [2, 5])[0]'(by omega)) ((logExpValues 1 1 0 [.fin 3, .fin 3] [2, 5])[1]'hv) = true :=
  C50_increasing 1 1 0 (by norm_num) (by norm_num) [.fin 3, .fin 3] [2, 5] rfl (by norm_num) 0 1 (by simp) (by simp) (by simp) (by simp) (by omega) hv 3 3 rfl rfl
    (by norm_num) (.inr ⟨rfl, by norm_num⟩)

/-- **C50**: another baseline shifts the finite values by the same number, and does not change the order of any two points. -/
theorem C50_baseline (zeta noise b b' : ℝ) (mus : List (Ext ℝ)) (stds : List ℝ) (h : mus.length = stds.length) :
    (logExpValues zeta noise b' mus stds = (logExpValues zeta noise b mus stds).map fun v => v.addFin (2 * zeta * (b - b'))) ∧
    ∀ (i j : ℕ) (hi : i < (logExpValues zeta noise b mus stds).length) (hj : j < (logExpValues zeta noise b mus stds).length)
      (hi' : i < (logExpValues zeta noise b' mus stds).length) (hj' : j < (logExpValues zeta noise b' mus stds).length),
      Ext.lt (logExpValues zeta noise b' mus stds)[i] (logExpValues zeta noise b' mus stds)[j] =
      Ext.lt (logExpValues zeta noise b mus stds)[i] (logExpValues zeta noise b mus stds)[j] := by
  have key : ∀ m s, logExp1 zeta noise b' m s = (logExp1 zeta noise b m s).addFin (2 * zeta * (b - b')) := by
    intro m s
    unfold logExp1
    cases m with
    | fin m =>
      simp only
      split_ifs
      · simp only [Ext.addFin]; congr 1; ring
      · rfl
    | negInf => rfl
    | posInf => rfl
    | nan => rfl
  have hmap : logExpValues zeta noise b' mus stds = (logExpValues zeta noise b mus stds).map fun v => v.addFin (2 * zeta * (b - b')) := by
    rw [logExpValues_eq _ _ _ _ _ h, logExpValues_eq _ _ _ _ _ h, List.map_zipWith]
    congr 1
    funext m s
    exact key m s
  refine ⟨hmap, ?_⟩
  intro i j hi hj hi' hj'
  have hlt : ∀ (u v : Ext ℝ) (c : ℝ), Ext.lt (u.addFin c) (v.addFin c) = Ext.lt u v := by
    intro u v c
    cases u <;> cases v <;> simp [Ext.addFin, Ext.lt]
  simp only [hmap, List.getElem_map]
  exact hlt _ _ _

example : logExpValues 1 1 7 [.fin 3, .negInf, .fin 2] [2, 5, 1 / 2] = (logExpValues 1 1 0 [.fin 3, .negInf, .fin 2] [2, 5, 1 / 2]).map fun v => v.addFin (2 * 1 * (0 - 7)) :=
  (C50_baseline 1 1 0 7 _ _ rfl).1

/-- **C17**, consequence for `LogExp`: with the same mean and a smaller standard deviation, the value is not larger. -/
theorem C17_logexp (zeta noise baseline : ℝ) (hn : 0 ≤ noise) (mu : Ext ℝ) (s s' : ℝ) (hs : 0 ≤ s) (h : s ≤ s') :
    ∃ v v', logExpValues zeta noise baseline [mu] [s] = [v] ∧ logExpValues zeta noise baseline [mu] [s'] = [v'] ∧
      Ext.le v v' = true := by
  refine ⟨logExp1 zeta noise baseline mu s, logExp1 zeta noise baseline mu s', by rw [logExpValues_eq _ _ _ _ _ rfl]; rfl,
    by rw [logExpValues_eq _ _ _ _ _ rfl]; rfl, ?_⟩
  cases mu with
  | fin m =>
    have hle : ∀ v : Ext ℝ, v ≠ .nan → Ext.le .negInf v = true := by intro v hv; cases v <;> simp_all [Ext.le]
    rcases h.eq_or_lt with rfl | h
    · unfold logExp1
      simp only
      split_ifs <;> simp [Ext.le]
    · rcases lt_or_ge noise s' with hc | hc
      · have := (logExp1_std (zeta := zeta) (baseline := baseline) (m := m) hn hs h).1 hc
        revert this
        cases logExp1 zeta noise baseline (.fin m) s <;> cases logExp1 zeta noise baseline (.fin m) s' <;> simp [Ext.lt, Ext.le]
        intro h; exact h.le
      · obtain ⟨h1, h2⟩ := (logExp1_std (zeta := zeta) (baseline := baseline) (m := m) hn hs h).2 hc
        rw [h1, h2]; rfl
  | negInf => rfl
  | posInf => rfl
  | nan => rfl

example : logExpValues 1 1 0 [.fin 3, .negInf, .fin 2] [2, 5, 1 / 2] = [.fin (6 + Real.log (Real.sqrt 3)), .negInf, .negInf] := by
  rw [logExpValues_eq _ _ _ _ _ rfl]
  simp [logExp1]
  norm_num

/-! ## C51: gradient of LogExp -/

variable {d : ℕ}

theorem logExp_hasPartial {mu std : (Fin d → ℝ) → ℝ} {x : Fin d → ℝ} {j : Fin d} {mg sg zeta noise baseline : ℝ}
    (hm : HasPartial mu x j mg) (hs : HasPartial std x j sg) (hpos : 0 < std x ^ 2 - noise ^ 2) :
    HasPartial (fun z => logExpF (mu z) (std z) baseline noise zeta) x j
      (2 * zeta * mg + std x * sg / (std x ^ 2 - noise ^ 2)) := by
  have hv : HasPartial (fun z => std z ^ 2 - noise ^ 2) x j (2 * std x * sg) := by
    have h1 := (hs.mul hs).add (hasPartial_const (-noise ^ 2) x j)
    have e : (fun z => std z * std z + -noise ^ 2) = fun z => std z ^ 2 - noise ^ 2 := by funext z; ring
    rw [e] at h1
    exact h1.congr_deriv (by ring)
  have hlog : HasDerivAt (fun v : ℝ => Real.log v / 2) ((std x ^ 2 - noise ^ 2)⁻¹ / 2) (std x ^ 2 - noise ^ 2) :=
    (Real.hasDerivAt_log hpos.ne').div_const 2
  have h2 := hv.comp (φ := fun v => Real.log v / 2) hlog
  have h3 := ((hasPartial_const (2 * zeta) x j).mul (hm.add (hasPartial_const (-baseline) x j))).add h2
  refine Predict.HasPartial.congr_pos (h3.congr_deriv ?_) hv hpos ?_
  · field_simp
    ring
  · intro z hz
    unfold logExpF
    rw [max_eq_left hz.le, Real.log_sqrt hz.le]
    ring

/-- What `LogExp` returns as gradient with a number as noise level. -/
theorem logExpGrad_scalar {twoDim : Bool} {zeta n m std : ℝ} {mg sg : Fin d → ℝ} (hn : 0 ≤ n) (hs : n < std) :
    logExpGrad twoDim zeta none (.scalar n) (.fin m) std mg sg = .ok fun j => .fin (sg j / (std - n) + 2 * zeta * mg j) := by
  have hpos : 0 < std ^ 2 - n ^ 2 := by
    have : n ^ 2 < std ^ 2 := (sq_lt_sq₀ hn (hn.trans hs.le)).2 hs
    linarith
  unfold logExpGrad
  cases twoDim with
  | true => simp [noiseVar, Ext.isFinite, sub_pos.1 hpos]
  | false => simp [hs]

/-- **C51**, partial: with a number as noise level and above it, the gradient of `LogExp` is the derivative of its value if
and only if the noise is zero or the derivative of the standard deviation is. -/
theorem C51_gradient_partial (twoDim : Bool) (zeta n baseline : ℝ) (hn : 0 ≤ n) (mu std : (Fin d → ℝ) → ℝ) (x : Fin d → ℝ)
    (mg sg : Fin d → ℝ) (hm : ∀ j, HasPartial mu x j (mg j)) (hs : ∀ j, HasPartial std x j (sg j)) (hpos : n < std x) :
    ∃ g : Fin d → ℝ, logExpGrad twoDim zeta none (.scalar n) (.fin (mu x)) (std x) mg sg = .ok (fun j => .fin (g j)) ∧
      ∀ j, HasPartial (fun z => logExpF (mu z) (std z) baseline n zeta) x j (g j) ↔ n = 0 ∨ sg j = 0 := by
  refine ⟨_, logExpGrad_scalar hn hpos, fun j => ?_⟩
  have hv : 0 < std x ^ 2 - n ^ 2 := by
    have : n ^ 2 < std x ^ 2 := (sq_lt_sq₀ hn (hn.trans hpos.le)).2 hpos
    linarith
  have ht := logExp_hasPartial (zeta := zeta) (noise := n) (baseline := baseline) (hm j) (hs j) hv
  have h1 : std x - n ≠ 0 := (sub_pos.2 hpos).ne'
  have h2 : std x + n ≠ 0 := by linarith
  have e : std x ^ 2 - n ^ 2 = (std x - n) * (std x + n) := by ring
  constructor
  · intro h
    have := HasDerivAt.unique h ht
    rw [e] at this
    have h3 : sg j / (std x - n) = std x * sg j / ((std x - n) * (std x + n)) := by linarith
    rw [div_eq_div_iff h1 (mul_ne_zero h1 h2)] at h3
    have h4 : (std x - n) * (sg j * n) = 0 := by linarith
    rcases mul_eq_zero.1 h4 with h5 | h5
    · exact absurd h5 h1
    · rcases mul_eq_zero.1 h5 with h6 | h6
      · exact Or.inr h6
      · exact Or.inl h6
  · intro h
    refine ht.congr_deriv ?_
    rw [e]
    rcases h with rfl | h
    · have h5 : std x ≠ 0 := by simpa using h1
      field_simp
      ring
    · rw [h]; ring

/-- Without noise the gradient is the derivative. -/
example : ∃ g : Fin 1 → ℝ, logExpGrad false 1 none (.scalar 0) (.fin 5) 2 (fun _ => 1) (fun _ => 0) = .ok (fun j => .fin (g j)) ∧
    HasPartial (fun z : Fin 1 → ℝ => logExpF (z 0) 2 0 0 1) (fun _ => 5) 0 (g 0) := by
  obtain ⟨g, h, H⟩ := C51_gradient_partial (d := 1) false 1 0 0 le_rfl (fun z => z 0) (fun _ => 2) (fun _ => 5) (fun _ => 1) (fun _ => 0)
    (fun j => (hasPartial_coord (fun _ => 5) 0 j).congr_deriv (by fin_cases j; simp)) (fun j => hasDerivAt_const _ _) (by norm_num)
  exact ⟨g, h, (H 0).2 (.inl rfl)⟩

/-- **C51** is false with noise: mean zero, standard deviation `2 + x`, noise 1, at 0. -/
theorem C51_noise_counterexample : ∃ g, logExpGrad false 1 none (.scalar 1) (.fin 0) 2 (fun _ : Fin 1 => 0) (fun _ => 1) = .ok g ∧
    ∀ v, g 0 = .fin v → ¬ HasPartial (fun z : Fin 1 → ℝ => logExpF 0 (2 + z 0) 0 1 1) (fun _ => 0) 0 v := by
  obtain ⟨g, hg, h⟩ := C51_gradient_partial (d := 1) false 1 1 0 (by norm_num) (fun _ => 0) (fun z => 2 + z 0) (fun _ => 0)
    (fun _ => 0) (fun _ => 1) (fun j => hasPartial_const 0 _ j) (fun j => by
      have := (hasPartial_const 2 (fun _ => (0 : ℝ)) j).add (hasPartial_coord (fun _ => (0 : ℝ)) 0 j)
      refine this.congr_deriv ?_
      fin_cases j; simp) (by norm_num)
  refine ⟨fun j => .fin (g j), by simpa using hg, fun v hv hp => ?_⟩
  cases hv
  rcases (h 0).1 hp with h1 | h1 <;> norm_num at h1

/-- **C51** is false if `sigma_n` is given: `UnboundLocalError`, whatever the rest; and with an array of two or more noise
levels: `ValueError`. -/
theorem C51_exceptions_counterexample (zeta std s : ℝ) (noise : Noise) (mu : Ext ℝ) (mg sg : Fin d → ℝ) (a b : ℝ) (l : List ℝ) :
    logExpGrad false zeta (some s) noise mu std mg sg = .error .unboundLocal ∧
    logExpGrad false zeta none (.array (a :: b :: l)) mu std mg sg = .error .valueError := by
  constructor <;> rfl

/-! ## C52: composition -/

/-- Where the power is differentiable (and real): a positive base, or an integer exponent. Elsewhere numpy gives `nan`
or infinities, which this model does not represent. -/
def PowOk (k p : ℝ) : Prop := 0 < k ∨ ∃ m : ℤ, p = m ∧ (k ≠ 0 ∨ 1 ≤ p)

def Expr.Ok {ι : Type} (f : ι → (Fin d → ℝ) → ℝ) (x : Fin d → ℝ) : Expr ι → Prop
  | leaf _ | const _ => True
  | sum a b | prod a b => a.Ok f x ∧ b.Ok f x
  | pow a p => a.Ok f x ∧ PowOk (a.value f x) p

/-- **C52**, partial (`Expr.Ok`): if the gradients of the operands at `x` are their derivatives, then the gradient of any expression of them
is its derivative, and the value returned with the gradient is the value returned without. -/
theorem C52_composition_partial {ι : Type} (f : ι → (Fin d → ℝ) → ℝ × (Fin d → ℝ)) (x : Fin d → ℝ)
    (hf : ∀ i j, HasPartial (fun z => (f i z).1) x j ((f i x).2 j)) (e : Expr ι) (he : e.Ok (fun i z => (f i z).1) x) :
    (∀ z, (e.call f z).1 = e.value (fun i z => (f i z).1) z) ∧
    ∀ j, HasPartial (fun z => (e.call f z).1) x j ((e.call f x).2 j) := by
  have hval : ∀ (e : Expr ι) z, (e.call f z).1 = e.value (fun i z => (f i z).1) z := by
    intro e
    induction e with
    | leaf i => intro z; rfl
    | const c => intro z; rfl
    | sum a b iha ihb => intro z; simp only [Expr.call, Expr.value, iha, ihb]
    | prod a b iha ihb => intro z; simp only [Expr.call, Expr.value, iha, ihb]
    | pow a p iha => intro z; simp only [Expr.call, Expr.value, iha]
  refine ⟨hval e, ?_⟩
  induction e with
  | leaf i => intro j; exact hf i j
  | const c => intro j; exact hasPartial_const c x j
  | sum a b iha ihb => intro j; exact (iha he.1 j).add (ihb he.2 j)
  | prod a b iha ihb =>
    intro j
    refine ((iha he.1 j).mul (ihb he.2 j)).congr_deriv ?_
    simp only [Expr.call]
    ring
  | pow a p iha =>
    intro j
    have hk := hval a x
    have hd : HasDerivAt (fun k : ℝ => k ^ p) (p * (a.call f x).1 ^ (p - 1)) (a.call f x).1 := by
      apply Real.hasDerivAt_rpow_const
      rw [hk]
      rcases he.2 with h | ⟨m, _, h⟩
      · exact Or.inl h.ne'
      · exact h
    refine ((iha he.1 j).comp hd).congr_deriv ?_
    simp only [Expr.call]
    ring

/-- C52: three plus the square of the coordinate, times the coordinate. -/
example (x : Fin 1 → ℝ) (j : Fin 1) :
    HasPartial (fun z => ((Expr.prod (.sum (.const 3) (.pow (.leaf ()) 2)) (.leaf ())).call (fun _ (z : Fin 1 → ℝ) => (z 0, fun _ : Fin 1 => (1 : ℝ))) z).1) x j
      (((Expr.prod (.sum (.const 3) (.pow (.leaf ()) 2)) (.leaf ())).call (fun _ (z : Fin 1 → ℝ) => (z 0, fun _ : Fin 1 => (1 : ℝ))) x).2 j) :=
  (C52_composition_partial (fun _ (z : Fin 1 → ℝ) => (z 0, fun _ : Fin 1 => (1 : ℝ))) x (fun i j => (hasPartial_coord x 0 j).congr_deriv (by fin_cases j; simp))
    (Expr.prod (.sum (.const 3) (.pow (.leaf ()) 2)) (.leaf ())) ⟨⟨trivial, trivial, Or.inr ⟨2, by norm_num, Or.inr (by norm_num)⟩⟩, trivial⟩).2 j

/-! ## C82: expected improvement; C81: building blocks -/

/-- **C82** is false: for a distribution function `cdf` with derivative `pdf`, `pdf' = -t pdf`, the gradient that is returned
is the derivative with the sign of the contribution of the mean inverted. It is right if and only if that contribution is
zero. -/
theorem C82_ei_gradient_partial (cdf pdf : ℝ → ℝ) (hc : ∀ t, HasDerivAt cdf (pdf t) t) (hp : ∀ t, HasDerivAt pdf (-t * pdf t) t)
    (yOpt xi : ℝ) (mu std : (Fin d → ℝ) → ℝ) (x : Fin d → ℝ) (mg sg : Fin d → ℝ) (hm : ∀ j, HasPartial mu x j (mg j))
    (hs : ∀ j, HasPartial std x j (sg j)) (hpos : 0 < std x) (j : Fin d) :
    HasPartial (fun z => eiValue cdf pdf yOpt xi (mu z) (std z)) x j
      (mg j * cdf ((mu x - yOpt - xi) / std x) + sg j * pdf ((mu x - yOpt - xi) / std x)) ∧
    eiGrad cdf pdf yOpt xi (mu x) (std x) mg sg j =
      -(mg j * cdf ((mu x - yOpt - xi) / std x)) + sg j * pdf ((mu x - yOpt - xi) / std x) ∧
    (HasPartial (fun z => eiValue cdf pdf yOpt xi (mu z) (std z)) x j (eiGrad cdf pdf yOpt xi (mu x) (std x) mg sg j) ↔
      mg j * cdf ((mu x - yOpt - xi) / std x) = 0) := by
  have hne : std x ≠ 0 := hpos.ne'
  have himp : HasPartial (fun z => mu z - yOpt - xi) x j (mg j) := by
    have := (hm j).add (hasPartial_const (-yOpt - xi) x j)
    have e : (fun z => mu z + (-yOpt - xi)) = fun z => mu z - yOpt - xi := by funext z; ring
    rw [e] at this
    exact this.congr_deriv (by ring)
  have hinv : HasPartial (fun z => (std z)⁻¹) x j (-(std x ^ 2)⁻¹ * sg j) := (hs j).comp (hasDerivAt_inv hne)
  have ht : HasPartial (fun z => (mu z - yOpt - xi) / std z) x j
      ((mg j * std x - (mu x - yOpt - xi) * sg j) / std x ^ 2) := by
    have := himp.mul hinv
    refine this.congr_deriv ?_
    field_simp
    ring
  have hv : HasPartial (fun z => (mu z - yOpt - xi) * cdf ((mu z - yOpt - xi) / std z) + std z * pdf ((mu z - yOpt - xi) / std z)) x j
      (mg j * cdf ((mu x - yOpt - xi) / std x) + sg j * pdf ((mu x - yOpt - xi) / std x)) := by
    have h1 := ht.comp (hc _)
    have h2 := ht.comp (hp _)
    refine ((himp.mul h1).add ((hs j).mul h2)).congr_deriv ?_
    field_simp
    ring
  have h1 : HasPartial (fun z => eiValue cdf pdf yOpt xi (mu z) (std z)) x j
      (mg j * cdf ((mu x - yOpt - xi) / std x) + sg j * pdf ((mu x - yOpt - xi) / std x)) := by
    refine Predict.HasPartial.congr_pos hv (hs j) hpos ?_
    intro z hz
    unfold eiValue
    rw [if_pos hz]
  have h2 : eiGrad cdf pdf yOpt xi (mu x) (std x) mg sg j =
      -(mg j * cdf ((mu x - yOpt - xi) / std x)) + sg j * pdf ((mu x - yOpt - xi) / std x) := by
    unfold eiGrad
    rw [if_pos hpos]
    dsimp only
    ring
  refine ⟨h1, h2, ?_⟩
  rw [h2]
  constructor
  · intro h
    have := HasDerivAt.unique h h1
    linarith
  · intro h
    refine h1.congr_deriv ?_
    rw [h]; ring

/-- With a constant mean the gradient is right. -/
example (cdf pdf : ℝ → ℝ) (hc : ∀ t, HasDerivAt cdf (pdf t) t) (hp : ∀ t, HasDerivAt pdf (-t * pdf t) t) :
    HasPartial (fun z : Fin 1 → ℝ => eiValue cdf pdf 1 0 2 (z 0)) (fun _ => 3) 0 (eiGrad cdf pdf 1 0 2 3 (fun _ => 0) (fun _ : Fin 1 => 1) 0) :=
  (C82_ei_gradient_partial cdf pdf hc hp 1 0 (fun _ => 2) (fun z => z 0) (fun _ => 3) (fun _ => 0) (fun _ => 1) (fun j => hasDerivAt_const _ _)
    (fun j => (hasPartial_coord (fun _ => 3) 0 j).congr_deriv (by fin_cases j; simp)) (by norm_num) 0).2.2.2 (by simp)

/-- **C81**: `NonlinearLogExp` is `2 ζ (μ - baseline) + log(exp √(σ² - σₙ²) - 1)` above the noise. -/
theorem C81_nonlinear (mu std baseline noise zeta : ℝ) (h : 0 < std ^ 2 - noise ^ 2) :
    nonlinearF mu std baseline noise zeta =
      2 * zeta * (mu - baseline) + Real.log (Real.exp (Real.sqrt (std ^ 2 - noise ^ 2)) - 1) := by
  unfold nonlinearF
  rw [max_eq_left h.le]
  congr 1
  have hx : 0 < Real.sqrt (std ^ 2 - noise ^ 2) := Real.sqrt_pos.2 h
  obtain ⟨x, hxd⟩ : ∃ x, x = Real.sqrt (std ^ 2 - noise ^ 2) := ⟨_, rfl⟩
  rw [← hxd] at hx ⊢
  unfold safeLogExpm1
  split_ifs with h1
  · rfl
  · have h2 : 0 < 1 + -Real.exp (-x) := by
      have : Real.exp (-x) < 1 := Real.exp_lt_one_iff.2 (by linarith)
      linarith
    have h3 : Real.exp x - 1 = Real.exp x * (1 + -Real.exp (-x)) := by
      rw [mul_add, mul_one, mul_neg, ← Real.exp_add]; simp; ring
    rw [h3, Real.log_mul (Real.exp_pos x).ne' h2.ne', Real.log_exp]

example : nonlinearF 3 2 1 1 1 = 2 * 1 * (3 - 1) + Real.log (Real.exp (Real.sqrt (2 ^ 2 - 1 ^ 2)) - 1) := C81_nonlinear 3 2 1 1 1 (by norm_num)

/-- **C81** is false of `Mu` and `Std`: documented as `a·μ` and `a·σ`, they ignore `a`. -/
theorem C81_scale_counterexample : muValue 2 1 ≠ 2 * 1 ∧ stdValue 2 1 ≠ 2 * 1 := by
  constructor <;> norm_num [muValue, stdValue]

/-- **C81** is false of `ExponentialMu`: it cannot be evaluated at several points, even without the gradient. -/
theorem C81_exponential_counterexample (a : ℝ) : expMuValue a [0, 0] = .error .valueError ∧
    ∀ mu, expMuValue a [mu] = .ok [Real.exp (a * mu)] := by
  constructor
  · rfl
  · intro mu; rfl

/-! ## C59: hyperparameters -/

def TExpr.leaves : TExpr → List ℕ
  | leaf i => [i]
  | op a b => a.leaves ++ b.leaves
  | pow a => a.leaves

/-- The values of the hyperparameters that are not fixed, of all the leaves in order. -/
def allFree (h : Heap) (l : List ℕ) : List (Option ℝ) := l.flatMap fun i => freeValues (h i)

theorem allFree_append (h : Heap) (l m : List ℕ) : allFree h (l ++ m) = allFree h l ++ allFree h m := by
  simp [allFree]

theorem theta_ok (h : Heap) : ∀ e : TExpr, (∀ v ∈ allFree h e.leaves, v ≠ none) →
    e.theta h = .ok ((allFree h e.leaves).map fun v => Real.log (v.getD 0))
  | .leaf i, hv => by
    rw [TExpr.theta, if_neg]
    · simp [allFree, TExpr.leaves]
    · rw [List.any_eq_true]
      rintro ⟨v, hm, hn⟩
      exact hv v (by simpa [allFree, TExpr.leaves] using hm) (Option.isNone_iff_eq_none.1 hn)
  | .op a b, hv => by
    rw [TExpr.leaves, allFree_append] at hv
    have ha := theta_ok h a (fun v hm => hv v (List.mem_append_left _ hm))
    have hb := theta_ok h b (fun v hm => hv v (List.mem_append_right _ hm))
    rw [TExpr.theta, ha, hb, TExpr.leaves, allFree_append, List.map_append]
  | .pow a, hv => theta_ok h a hv

theorem setLeaf_ok : ∀ (l : List Hp) (t : List ℝ), t.length = (freeValues l).length →
    ∃ l', setLeaf l t = .ok (l', []) ∧ freeValues l' = t.map (fun x => some (Real.exp x)) ∧
      l'.map Hp.fixed = l.map Hp.fixed ∧ (l'.filter Hp.fixed) = l.filter Hp.fixed
  | [], t, h => by
    have : t = [] := by simpa [freeValues] using h
    subst this
    exact ⟨[], rfl, rfl, rfl, rfl⟩
  | ⟨v, true⟩ :: l, t, h => by
    obtain ⟨l', h1, h2, h3, h4⟩ := setLeaf_ok l t (by simpa [freeValues] using h)
    refine ⟨⟨v, true⟩ :: l', by rw [setLeaf, h1], ?_, by simp [h3], by simp [h4]⟩
    simpa [freeValues] using h2
  | ⟨v, false⟩ :: l, [], h => by simp [freeValues] at h
  | ⟨v, false⟩ :: l, x :: t, h => by
    obtain ⟨l', h1, h2, h3, h4⟩ := setLeaf_ok l t (by simpa [freeValues] using h)
    refine ⟨⟨some (Real.exp x), false⟩ :: l', by rw [setLeaf, h1], ?_, by simp [h3], by simp [h4]⟩
    simpa [freeValues] using h2

theorem freeValues_length (l l' : List Hp) (h : l'.map Hp.fixed = l.map Hp.fixed) : (freeValues l').length = (freeValues l).length := by
  have key : ∀ l : List Hp, (freeValues l).length = (l.map Hp.fixed).count false := by
    intro l
    induction l with
    | nil => rfl
    | cons a l ih =>
      rcases a with ⟨v, _ | _⟩ <;> simp_all [freeValues]
  rw [key, key, h]

/-- The heap after setting `theta`: leaves of the expression get their components, in order. -/
structure SetSpec (h h' : Heap) (leaves : List ℕ) (t : List ℝ) : Prop where
  free : allFree h' leaves = t.map fun x => some (Real.exp x)
  flags : ∀ i, (h' i).map Hp.fixed = (h i).map Hp.fixed
  fixed : ∀ i, (h' i).filter Hp.fixed = (h i).filter Hp.fixed
  other : ∀ i, i ∉ leaves → h' i = h i

theorem allFree_congr {h h' : Heap} {l : List ℕ} (H : ∀ i ∈ l, h' i = h i) : allFree h' l = allFree h l := by
  unfold allFree
  induction l with
  | nil => rfl
  | cons a l ih =>
    rw [List.flatMap_cons, List.flatMap_cons, H a List.mem_cons_self, ih fun i hi => H i (List.mem_cons_of_mem _ hi)]

theorem allFree_length {h h' : Heap} (H : ∀ i, (h' i).map Hp.fixed = (h i).map Hp.fixed) (l : List ℕ) :
    (allFree h' l).length = (allFree h l).length := by
  unfold allFree
  induction l with
  | nil => rfl
  | cons a l ih => rw [List.flatMap_cons, List.flatMap_cons, List.length_append, List.length_append, ih, freeValues_length _ _ (H a)]

theorem setTheta_ok : ∀ (e : TExpr) (h : Heap) (t : List ℝ), e.leaves.Nodup → (∀ v ∈ allFree h e.leaves, v ≠ none) →
    t.length = (allFree h e.leaves).length → ∃ h', e.setTheta h t = (h', none) ∧ SetSpec h h' e.leaves t
  | .leaf i, h, t, hnd, hv, hl => by
    obtain ⟨l', h1, h2, h3, h4⟩ := setLeaf_ok (h i) t (by simpa [allFree, TExpr.leaves] using hl)
    refine ⟨fun j => if j = i then l' else h j, by rw [TExpr.setTheta, h1], ?_, ?_, ?_, ?_⟩
    · simpa [allFree, TExpr.leaves] using h2
    · intro j; by_cases hj : j = i
      · subst hj; simpa using h3
      · simp [hj]
    · intro j; by_cases hj : j = i
      · subst hj; simpa using h4
      · simp [hj]
    · intro j hj
      have : j ≠ i := by simpa [TExpr.leaves] using hj
      simp [this]
  | .op a b, h, t, hnd, hv, hl => by
    rw [TExpr.leaves, allFree_append] at hv hl
    rw [TExpr.leaves, List.nodup_append] at hnd
    obtain ⟨hna, hnb, hdis⟩ := hnd
    have hva : ∀ v ∈ allFree h a.leaves, v ≠ none := fun v hm => hv v (List.mem_append_left _ hm)
    have hta := theta_ok h a hva
    rw [List.length_append] at hl
    obtain ⟨n, hn⟩ : ∃ n, n = (allFree h a.leaves).length := ⟨_, rfl⟩
    obtain ⟨h1, e1, s1⟩ := setTheta_ok a h (t.take n) hna hva (by rw [List.length_take]; omega)
    have hb : ∀ i ∈ b.leaves, h1 i = h i := fun i hi => s1.other i fun hia => hdis i hia i hi rfl
    have hfb := allFree_congr hb
    obtain ⟨h2, e2, s2⟩ := setTheta_ok b h1 (t.drop n) hnb
      (fun v hm => hv v (List.mem_append_right _ (by rwa [hfb] at hm))) (by rw [List.length_drop, hfb]; omega)
    refine ⟨h2, ?_, ?_, ?_, ?_, ?_⟩
    · rw [TExpr.setTheta, hta]
      simp only [List.length_map, ← hn, e1, e2]
    · have ha2 : allFree h2 a.leaves = allFree h1 a.leaves := allFree_congr fun i hi => s2.other i fun hib => hdis i hi i hib rfl
      rw [TExpr.leaves, allFree_append, ha2, s1.free, s2.free, ← List.map_append, List.take_append_drop]
    · intro i; rw [s2.flags, s1.flags]
    · intro i; rw [s2.fixed, s1.fixed]
    · intro i hi
      rw [TExpr.leaves, List.mem_append] at hi
      push Not at hi
      rw [s2.other i hi.2, s1.other i hi.1]
  | .pow a, h, t, hnd, hv, hl => setTheta_ok a h t hnd hv hl

/-- **C59**, partial: for expressions of different objects whose free hyperparameters are numbers, setting a vector of the
right length and reading it returns the same vector; the free hyperparameters of the leaves, from left to right, are the
exponentials of its components; fixed ones and other objects are unchanged. -/
theorem C59_roundtrip_partial (e : TExpr) (h : Heap) (t : List ℝ) (hnd : e.leaves.Nodup)
    (hv : ∀ i ∈ e.leaves, ∀ p ∈ h i, p.fixed = false → p.value ≠ none)
    (hl : ∀ t0, e.theta h = .ok t0 → t.length = t0.length) :
    ∃ h', e.setTheta h t = (h', none) ∧ e.theta h' = .ok t ∧
      (e.leaves.flatMap fun i => freeValues (h' i)) = t.map (fun x => some (Real.exp x)) ∧
      (∀ i, (h' i).filter Hp.fixed = (h i).filter Hp.fixed) ∧ ∀ i, i ∉ e.leaves → h' i = h i := by
  have hv' : ∀ v ∈ allFree h e.leaves, v ≠ none := by
    intro v hm
    unfold allFree freeValues at hm
    rw [List.mem_flatMap] at hm
    obtain ⟨i, hi, hm⟩ := hm
    rw [List.mem_map] at hm
    obtain ⟨p, hp, rfl⟩ := hm
    rw [List.mem_filter] at hp
    exact hv i hi p hp.1 (by simpa using hp.2)
  have hlen := hl _ (theta_ok h e hv')
  rw [List.length_map] at hlen
  obtain ⟨h', e1, s⟩ := setTheta_ok e h t hnd hv' hlen
  refine ⟨h', e1, ?_, s.free, s.fixed, s.other⟩
  rw [theta_ok h' e (by rw [s.free]; simp), s.free, List.map_map]
  congr 1
  calc _ = t.map id := List.map_congr_left fun x _ => by simp
    _ = t := List.map_id t

/-- **C59** is false if an object is used twice, e.g. `af + af`: the second half of the vector is read twice. -/
theorem C59_alias_counterexample :
    ∃ h h', (TExpr.op (.leaf 0) (.leaf 0)).theta h = .ok [0, 0] ∧
      (TExpr.op (.leaf 0) (.leaf 0)).setTheta h [1, 2] = (h', none) ∧ (TExpr.op (.leaf 0) (.leaf 0)).theta h' = .ok [2, 2] := by
  refine ⟨fun _ => [⟨some 1, false⟩], fun j => if j = 0 then [⟨some (Real.exp 2), false⟩] else [⟨some 1, false⟩], ?_, ?_, ?_⟩
  · simp [TExpr.theta, freeValues]
  · simp [TExpr.theta, freeValues, TExpr.setTheta, setLeaf]
    funext j
    split_ifs <;> rfl
  · simp [TExpr.theta, freeValues]

/-- **C59** is false of the default `LogExp`: `sigma_n` is a free hyperparameter with value `None`. Neither can the vector be
read, nor set in a sum. -/
theorem C59_logexp_counterexample (zeta : ℝ) (t : List ℝ) (h : Heap) (h0 : h 0 = [⟨none, false⟩, ⟨some zeta, false⟩]) (b : TExpr) :
    (TExpr.leaf 0).theta h = .error .typeError ∧ (TExpr.op (.leaf 0) b).setTheta h t = (h, some .typeError) := by
  constructor <;> simp [TExpr.setTheta, TExpr.theta, freeValues, h0]

/-- C59: an object with a fixed and a free hyperparameter, and another one. -/
example : ∃ h', (TExpr.op (.leaf 0) (.pow (.leaf 1))).setTheta
    (fun i => if i = 0 then [⟨none, true⟩, ⟨some 3, false⟩] else [⟨some 2, false⟩]) [5, 7] = (h', none) ∧
    (TExpr.op (.leaf 0) (.pow (.leaf 1))).theta h' = .ok [5, 7] := by
  obtain ⟨h', h1, h2, _⟩ := C59_roundtrip_partial (TExpr.op (.leaf 0) (.pow (.leaf 1)))
    (fun i => if i = 0 then [⟨none, true⟩, ⟨some 3, false⟩] else [⟨some 2, false⟩]) [5, 7] (by decide)
    (by
      intro i hi p hp hf
      simp only [TExpr.leaves, List.cons_append, List.nil_append, List.mem_cons, List.not_mem_nil, or_false] at hi
      rcases hi with rfl | rfl
      · simp at hp; rcases hp with rfl | rfl
        · cases hf
        · simp
      · simp at hp; subst hp; simp)
    (by intro t0 ht; simp [TExpr.theta, freeValues] at ht; subst ht; rfl)
  exact ⟨h', h1, h2⟩

end GPry.Acq
