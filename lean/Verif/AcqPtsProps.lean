import Verif.AcqPts
import Verif.AcqProps
import Verif.PredictProps
import Verif.EiLaw
import Verif.PredictGrad

set_option linter.all false

/-! # Acquisition functions at several points (C141) -/

namespace GPry.AcqPts

open GPry Acq Predict

variable {d n : ℕ}

/-- One value of the expected improvement. -/
noncomputable def ei1 (cdf pdf : ℝ → ℝ) (yOpt xi : ℝ) (m : Ext ℝ) (s : ℝ) : Ext ℝ := if 0 < s then eiEntry cdf pdf yOpt xi m s else .fin 0

theorem eiValues_eq (cdf pdf : ℝ → ℝ) (yOpt xi : ℝ) : ∀ (mus : List (Ext ℝ)) (stds : List ℝ), mus.length = stds.length →
    eiValues cdf pdf yOpt xi mus stds = List.zipWith (ei1 cdf pdf yOpt xi) mus stds
  | [], [], _ => rfl
  | m :: mus, s :: stds, h => by
    have ih := eiValues_eq cdf pdf yOpt xi mus stds (by simpa using h)
    unfold eiValues at ih ⊢
    dsimp only at ih ⊢
    by_cases hs : 0 < s
    · simp only [List.map_cons, decide_eq_true hs, maskGet, List.zipWith_cons_cons, scatter, ih, ei1, if_pos hs]
    · simp only [List.map_cons, decide_eq_false hs, maskGet, List.zipWith_cons_cons, scatter, ih, ei1, if_neg hs]
  | [], _ :: _, h => by simp at h
  | _ :: _, [], h => by simp at h

/-- The two masked assignments together fill the array. -/
theorem safeLogExpm1V_eq (junk : ℝ) : ∀ xs : List ℝ, safeLogExpm1V junk xs = xs.map safeLogExpm1
  | [] => rfl
  | x :: xs => by
    have ih := safeLogExpm1V_eq junk xs
    unfold safeLogExpm1V at ih ⊢
    dsimp only at ih ⊢
    by_cases h : x < 1
    · simp only [List.map_cons, decide_eq_true h, maskGet, scatter, Bool.not_true, ih, safeLogExpm1, if_pos h]
    · simp only [List.map_cons, decide_eq_false h, maskGet, scatter, Bool.not_false, ih, safeLogExpm1, if_neg h]

/-- One value of `NonlinearLogExp`. -/
noncomputable def nonlinear1 (zeta noise baseline : ℝ) (m : Ext ℝ) (s : ℝ) : Ext ℝ :=
  match m with
  | .fin m => if noise ^ 2 < s ^ 2 then .fin (2 * zeta * (m - baseline) + Real.log (Real.exp (Real.sqrt (s ^ 2 - noise ^ 2)) - 1)) else .negInf
  | _ => .negInf

theorem nonlinearV_eq (zeta noise baseline : ℝ) (mus : List (Ext ℝ)) (stds : List ℝ) :
    nonlinearV zeta noise baseline mus stds = List.zipWith (fun mu std => add (mulR (2 * zeta) (mu.subFin baseline))
      (.fin (safeLogExpm1 (Real.sqrt (max (std ^ 2 - noise ^ 2) 0))))) mus stds := by
  unfold nonlinearV
  rw [safeLogExpm1V_eq, List.map_map, List.zipWith_map_right]
  rfl

theorem nonlinearValues_eq (zeta noise baseline : ℝ) (mus : List (Ext ℝ)) (stds : List ℝ) (h : mus.length = stds.length) :
    nonlinearValues zeta noise baseline mus stds = List.zipWith (nonlinear1 zeta noise baseline) mus stds := by
  unfold nonlinearValues
  dsimp only
  rw [nonlinearV_eq, masked_values _ _ _ _ h]
  congr 1
  funext x y
  unfold nonlinear1
  cases x with
  | fin m =>
    simp only [Ext.isFinite, Bool.and_true, decide_eq_true_eq, sub_pos]
    split_ifs with hc
    · have := C81_nonlinear m y baseline noise zeta (sub_pos.2 hc)
      unfold nonlinearF at this
      simp [Ext.subFin, mulR, add, Ext.neg, Ext.sub, this]
    · rfl
  | negInf => simp [Ext.isFinite]
  | posInf => simp [Ext.isFinite]
  | nan => simp [Ext.isFinite]

/-- The functions that ask for the gradient. -/
def Leaf.Exponential : Leaf → Prop
  | expMu _ | expStd _ => True
  | _ => False

def Af.Exponential : Af → Prop
  | leaf l => l.Exponential
  | sum a b | prod a b => a.Exponential ∨ b.Exponential
  | pow a _ => a.Exponential

/-- The number of functions that look at the surrogate. -/
def Af.calls : Af → ℕ
  | leaf (.const _) => 0
  | leaf _ => 1
  | sum a b | prod a b => a.calls + b.calls
  | pow a _ => a.calls

variable (cdf pdf : ℝ → ℝ) (pw : ℝ → Ext ℝ → Ext ℝ)

theorem noGrad_ok {g : Surrogate d n} {X : List (Fin d → ℝ)} {r : List (Ext ℝ) × List ℝ} :
    noGrad g X = .ok r ↔ g.st.predict X false = .ok r := by
  unfold noGrad
  cases g.st.predict X false <;> simp

theorem noGrad_at (g : Surrogate d (n + 1)) (hfit : g.st.fitted = true) (hc : ∀ c, g.st.svm = some c → c.trained = true) {X : List (Fin d → ℝ)}
    {r : List (Ext ℝ) × List ℝ} (h : noGrad g X = .ok r) :
    r.1.length = X.length ∧ r.2.length = X.length ∧
    ∀ (i : ℕ) (hi : i < X.length), ∃ (h1 : i < r.1.length) (h2 : i < r.2.length), noGrad g [X[i]] = .ok ([r.1[i]], [r.2[i]]) := by
  rw [noGrad_ok] at h
  obtain ⟨hs, hm⟩ := predict_eq hfit h
  refine ⟨?_, by rw [hs, List.length_map], fun i hi => ?_⟩
  · rcases hm with ⟨_, hm⟩ | ⟨φ, _, hm⟩ <;> rw [hm, List.length_map]
  obtain ⟨h1, h2, h3⟩ := C14_batch g.st hfit hc X false r.1 r.2 h i hi
  exact ⟨h1, h2, noGrad_ok.2 h3⟩

theorem leaf_pointwise (g : Surrogate d (n + 1)) (hfit : g.st.fitted = true) (hc : ∀ c, g.st.svm = some c → c.trained = true)
    (X : List (Fin d → ℝ)) (l : Leaf) (vs : List (Ext ℝ)) (h : (l.eval cdf pdf g X).2 = .ok vs) :
    vs.length = X.length ∧ ∀ (i : ℕ) (hi : i < X.length), ∃ hv : i < vs.length, (l.eval cdf pdf g [X[i]]).2 = .ok [vs[i]] := by
  have single : ∀ (f : List (Ext ℝ) × List ℝ → List (Ext ℝ)), (withGrad g X).map f = .ok vs →
      (∀ r, noGrad g X = .ok r → (f r).length = X.length) →
      vs.length = X.length ∧ ∀ (i : ℕ) (hi : i < X.length), ∃ hv : i < vs.length, (withGrad g [X[i]]).map f = .ok [vs[i]] := by
    intro f h hf
    have hX : X.length = 1 := by
      by_contra hX
      unfold withGrad at h
      rw [if_pos hX] at h
      cases h
    have hlen : vs.length = X.length := by
      unfold withGrad at h
      rw [if_neg (by simpa using hX)] at h
      cases hp : g.st.predict X false with
      | error e => rw [hp] at h; cases h
      | ok r =>
        rw [hp] at h
        dsimp only at h
        split_ifs at h
        · rw [← Except.ok.inj h]; exact hf r (noGrad_ok.2 hp)
        · cases h
    refine ⟨hlen, fun i hi => ⟨by omega, ?_⟩⟩
    obtain ⟨x, rfl⟩ := List.length_eq_one_iff.1 hX
    obtain ⟨v, rfl⟩ := List.length_eq_one_iff.1 (hlen.trans hX)
    have : i = 0 := by simpa using hi
    subst this
    exact h
  have many : ∀ (f : List (Ext ℝ) × List ℝ → List (Ext ℝ)) (g1 : Ext ℝ → ℝ → Ext ℝ),
      (∀ ms ss, ms.length = ss.length → f (ms, ss) = List.zipWith g1 ms ss) → (noGrad g X).map f = .ok vs →
      vs.length = X.length ∧ ∀ (i : ℕ) (hi : i < X.length), ∃ hv : i < vs.length, (noGrad g [X[i]]).map f = .ok [vs[i]] := by
    intro f g1 hf h
    cases hn : noGrad g X with
    | error e => rw [hn] at h; cases h
    | ok r =>
      rw [hn] at h
      obtain ⟨h1, h2, h3⟩ := noGrad_at g hfit hc hn
      have hfr : f r = List.zipWith g1 r.1 r.2 := hf r.1 r.2 (h1.trans h2.symm)
      have hv : vs = List.zipWith g1 r.1 r.2 := by rw [← hfr]; exact (Except.ok.inj h).symm
      refine ⟨by rw [hv, List.length_zipWith]; omega, fun i hi => ?_⟩
      obtain ⟨a, b, e⟩ := h3 i hi
      refine ⟨by rw [hv, List.length_zipWith]; omega, ?_⟩
      rw [e]
      show Except.ok (f ([r.1[i]], [r.2[i]])) = _
      rw [hf _ _ rfl]
      simp [hv]
  cases l with
  | const c =>
    have hv : vs = X.map fun _ => .fin c := (Except.ok.inj h).symm
    subst hv
    exact ⟨by simp, fun i hi => ⟨by simpa using hi, by simp [Leaf.eval]⟩⟩
  | mu a =>
    exact many _ (fun m _ => m) (fun ms ss hl => by
      refine (List.ext_getElem (by simp [hl]) fun i h1 h2 => by simp)) h
  | std a =>
    exact many _ (fun _ s => .fin s) (fun ms ss hl => by
      refine (List.ext_getElem (by simp [hl]) fun i h1 h2 => by simp)) h
  | expMu a =>
    exact single _ h fun r hr => by rw [List.length_map]; exact (noGrad_at g hfit hc hr).1
  | expStd a =>
    exact single _ h fun r hr => by rw [List.length_map]; exact (noGrad_at g hfit hc hr).2.1
  | ei xi => exact many _ _ (eiValues_eq cdf pdf g.yMax xi) h
  | logExp zeta sigmaN => exact many _ _ (logExpValues_eq zeta _ g.yMax) h
  | nonlinear zeta sigmaN => exact many _ _ (nonlinearValues_eq zeta _ g.yMax) h

/-- **C141**: the values of an acquisition function at several points are those at each of the points. -/
theorem C141_pointwise (g : Surrogate d (n + 1)) (hfit : g.st.fitted = true) (hc : ∀ c, g.st.svm = some c → c.trained = true)
    (X : List (Fin d → ℝ)) (a : Af) (vs : List (Ext ℝ)) (h : (a.eval cdf pdf pw g X).2 = .ok vs) :
    vs.length = X.length ∧ ∀ (i : ℕ) (hi : i < X.length), ∃ hv : i < vs.length, (a.eval cdf pdf pw g [X[i]]).2 = .ok [vs[i]] := by
  induction a generalizing vs with
  | leaf l => exact leaf_pointwise cdf pdf g hfit hc X l vs h
  | sum a b iha ihb =>
    rw [Af.eval] at h
    rcases ha : a.eval cdf pdf pw g X with ⟨k, _ | u⟩
    · rw [ha] at h; cases h
    rcases hb : b.eval cdf pdf pw g X with ⟨k', _ | v⟩
    · rw [ha] at h; simp only [hb] at h; cases h
    rw [ha] at h
    simp only [hb] at h
    obtain ⟨ua, ub⟩ := iha u (by rw [ha])
    obtain ⟨va, vb⟩ := ihb v (by rw [hb])
    have hv : vs = List.zipWith add u v := (Except.ok.inj h).symm
    have hl : vs.length = X.length := by rw [hv, List.length_zipWith]; omega
    refine ⟨hl, fun i hi => ⟨by omega, ?_⟩⟩
    obtain ⟨_, e1⟩ := ub i hi
    obtain ⟨_, e2⟩ := vb i hi
    rw [Af.eval]
    rcases ha1 : a.eval cdf pdf pw g [X[i]] with ⟨k1, r1⟩
    rcases hb1 : b.eval cdf pdf pw g [X[i]] with ⟨k2, r2⟩
    rw [ha1] at e1
    rw [hb1] at e2
    dsimp only at e1 e2
    subst e1 e2
    simp [hv]
  | prod a b iha ihb =>
    rw [Af.eval] at h
    rcases ha : a.eval cdf pdf pw g X with ⟨k, _ | u⟩
    · rw [ha] at h; cases h
    rcases hb : b.eval cdf pdf pw g X with ⟨k', _ | v⟩
    · rw [ha] at h; simp only [hb] at h; cases h
    rw [ha] at h
    simp only [hb] at h
    obtain ⟨ua, ub⟩ := iha u (by rw [ha])
    obtain ⟨va, vb⟩ := ihb v (by rw [hb])
    have hv : vs = List.zipWith mul u v := (Except.ok.inj h).symm
    have hl : vs.length = X.length := by rw [hv, List.length_zipWith]; omega
    refine ⟨hl, fun i hi => ⟨by omega, ?_⟩⟩
    obtain ⟨_, e1⟩ := ub i hi
    obtain ⟨_, e2⟩ := vb i hi
    rw [Af.eval]
    rcases ha1 : a.eval cdf pdf pw g [X[i]] with ⟨k1, r1⟩
    rcases hb1 : b.eval cdf pdf pw g [X[i]] with ⟨k2, r2⟩
    rw [ha1] at e1
    rw [hb1] at e2
    dsimp only at e1 e2
    subst e1 e2
    simp [hv]
  | pow a p iha =>
    rw [Af.eval] at h
    rcases ha : a.eval cdf pdf pw g X with ⟨k, _ | u⟩
    · rw [ha] at h; cases h
    rw [ha] at h
    obtain ⟨ua, ub⟩ := iha u (by rw [ha])
    have hv : vs = u.map (pw p) := (Except.ok.inj h).symm
    have hl : vs.length = X.length := by rw [hv, List.length_map]; exact ua
    refine ⟨hl, fun i hi => ⟨by omega, ?_⟩⟩
    obtain ⟨_, e1⟩ := ub i hi
    rw [Af.eval]
    rcases ha1 : a.eval cdf pdf pw g [X[i]] with ⟨k1, r1⟩
    rw [ha1] at e1
    dsimp only at e1
    subst e1
    simp [hv]

theorem leaf_returns (g : Surrogate d (n + 1)) (hc : ∀ c, g.st.svm = some c → c.trained = true) (X : List (Fin d → ℝ)) (l : Leaf) :
    (∃ vs, (l.eval cdf pdf g X).2 = .ok vs) ↔ (l.Exponential → X.length = 1 ∧ X.all g.gradOk = true) := by
  obtain ⟨ms, ss, hp⟩ := C14_returns g.st hc X false
  have hn : noGrad g X = .ok (ms, ss) := noGrad_ok.2 hp
  have hw : ∀ f : List (Ext ℝ) × List ℝ → List (Ext ℝ), (∃ vs, (withGrad g X).map f = .ok vs) ↔ X.length = 1 ∧ X.all g.gradOk = true := by
    intro f
    unfold withGrad
    rw [hp]
    by_cases h1 : X.length = 1
    · rw [if_neg (by simpa using h1)]
      dsimp only
      split_ifs with h2
      · exact ⟨fun _ => ⟨h1, h2⟩, fun _ => ⟨_, rfl⟩⟩
      · exact ⟨fun ⟨_, h⟩ => (by cases h), fun h => absurd h.2 h2⟩
    · rw [if_pos h1]
      exact ⟨fun ⟨_, h⟩ => (by cases h), fun h => absurd h.1 h1⟩
  cases l with
  | const c => exact ⟨fun _ h => h.elim, fun _ => ⟨_, rfl⟩⟩
  | mu a => exact ⟨fun _ h => h.elim, fun _ => ⟨_, by rw [Leaf.eval, hn]; rfl⟩⟩
  | std a => exact ⟨fun _ h => h.elim, fun _ => ⟨_, by rw [Leaf.eval, hn]; rfl⟩⟩
  | expMu a => exact ⟨fun h _ => (hw _).1 h, fun h => (hw _).2 (h trivial)⟩
  | expStd a => exact ⟨fun h _ => (hw _).1 h, fun h => (hw _).2 (h trivial)⟩
  | ei xi => exact ⟨fun _ h => h.elim, fun _ => ⟨_, by rw [Leaf.eval, hn]; rfl⟩⟩
  | logExp zeta sigmaN => exact ⟨fun _ h => h.elim, fun _ => ⟨_, by rw [Leaf.eval, hn]; rfl⟩⟩
  | nonlinear zeta sigmaN => exact ⟨fun _ h => h.elim, fun _ => ⟨_, by rw [Leaf.eval, hn]; rfl⟩⟩

/-- **C141**: an acquisition function returns at all lists of points iff it has no `ExponentialMu` or `ExponentialStd`; with one of these only at a
single point whose gradient can be computed, although the gradient was not asked for. -/
theorem C141_returns_iff (g : Surrogate d (n + 1)) (hc : ∀ c, g.st.svm = some c → c.trained = true) (X : List (Fin d → ℝ)) (a : Af) :
    (∃ vs, (a.eval cdf pdf pw g X).2 = .ok vs) ↔ (a.Exponential → X.length = 1 ∧ X.all g.gradOk = true) := by
  induction a with
  | leaf l => exact leaf_returns cdf pdf g hc X l
  | sum a b iha ihb =>
    rw [Af.eval]
    rcases ha : a.eval cdf pdf pw g X with ⟨k, e | u⟩
    · rw [ha] at iha
      have : ¬ (a.Exponential → _) := fun h => by obtain ⟨_, hh⟩ := iha.2 h; cases hh
      exact ⟨fun ⟨_, h⟩ => (by cases h), fun h => absurd (fun ha' => h (Or.inl ha')) this⟩
    rcases hb : b.eval cdf pdf pw g X with ⟨k', e | v⟩
    · rw [hb] at ihb
      have : ¬ (b.Exponential → _) := fun h => by obtain ⟨_, hh⟩ := ihb.2 h; cases hh
      exact ⟨fun ⟨_, h⟩ => (by cases h), fun h => absurd (fun hb' => h (Or.inr hb')) this⟩
    rw [ha] at iha
    rw [hb] at ihb
    exact ⟨fun _ h => h.elim (iha.1 ⟨u, rfl⟩) (ihb.1 ⟨v, rfl⟩), fun _ => ⟨_, rfl⟩⟩
  | prod a b iha ihb =>
    rw [Af.eval]
    rcases ha : a.eval cdf pdf pw g X with ⟨k, e | u⟩
    · rw [ha] at iha
      have : ¬ (a.Exponential → _) := fun h => by obtain ⟨_, hh⟩ := iha.2 h; cases hh
      exact ⟨fun ⟨_, h⟩ => (by cases h), fun h => absurd (fun ha' => h (Or.inl ha')) this⟩
    rcases hb : b.eval cdf pdf pw g X with ⟨k', e | v⟩
    · rw [hb] at ihb
      have : ¬ (b.Exponential → _) := fun h => by obtain ⟨_, hh⟩ := ihb.2 h; cases hh
      exact ⟨fun ⟨_, h⟩ => (by cases h), fun h => absurd (fun hb' => h (Or.inr hb')) this⟩
    rw [ha] at iha
    rw [hb] at ihb
    exact ⟨fun _ h => h.elim (iha.1 ⟨u, rfl⟩) (ihb.1 ⟨v, rfl⟩), fun _ => ⟨_, rfl⟩⟩
  | pow a p iha =>
    rw [Af.eval]
    rcases ha : a.eval cdf pdf pw g X with ⟨k, e | u⟩
    · rw [ha] at iha
      have : ¬ (a.Exponential → _) := fun h => by obtain ⟨_, hh⟩ := iha.2 h; cases hh
      exact ⟨fun ⟨_, h⟩ => (by cases h), fun h => absurd h this⟩
    rw [ha] at iha
    exact ⟨fun _ => iha.1 ⟨u, rfl⟩, fun _ => ⟨_, rfl⟩⟩

/-- **C141**: `n_eval` of the surrogate increases by the number of points for every function in the expression that looks at it. -/
theorem C141_count (g : Surrogate d n) (X : List (Fin d → ℝ)) (a : Af) (vs : List (Ext ℝ)) (h : (a.eval cdf pdf pw g X).2 = .ok vs) :
    (a.eval cdf pdf pw g X).1 = X.length * a.calls := by
  induction a generalizing vs with
  | leaf l => cases l <;> simp [Af.eval, Leaf.eval, Af.calls]
  | sum a b iha ihb =>
    rw [Af.eval] at h ⊢
    rcases ha : a.eval cdf pdf pw g X with ⟨k, _ | u⟩
    · rw [ha] at h; cases h
    rcases hb : b.eval cdf pdf pw g X with ⟨k', _ | v⟩
    · rw [ha] at h; simp only [hb] at h; cases h
    have h1 := iha u (by rw [ha])
    have h2 := ihb v (by rw [hb])
    rw [ha] at h1
    rw [hb] at h2
    dsimp only at h1 h2
    simp only [Af.calls, h1, h2, mul_add]
  | prod a b iha ihb =>
    rw [Af.eval] at h ⊢
    rcases ha : a.eval cdf pdf pw g X with ⟨k, _ | u⟩
    · rw [ha] at h; cases h
    rcases hb : b.eval cdf pdf pw g X with ⟨k', _ | v⟩
    · rw [ha] at h; simp only [hb] at h; cases h
    have h1 := iha u (by rw [ha])
    have h2 := ihb v (by rw [hb])
    rw [ha] at h1
    rw [hb] at h2
    dsimp only at h1 h2
    simp only [Af.calls, h1, h2, mul_add]
  | pow a p iha =>
    rw [Af.eval] at h ⊢
    rcases ha : a.eval cdf pdf pw g X with ⟨k, _ | u⟩
    · rw [ha] at h; cases h
    have h1 := iha u (by rw [ha])
    rw [ha] at h1
    exact h1

/-- The functions in an expression, from left to right. -/
def Af.leaves : Af → List Leaf
  | .leaf l => [l]
  | .sum a b => a.leaves ++ b.leaves
  | .prod a b => a.leaves ++ b.leaves
  | .pow a _ => a.leaves

theorem eval_leaves (g : Surrogate d n) (X : List (Fin d → ℝ)) (a : Af) (vs : List (Ext ℝ)) (h : (a.eval cdf pdf pw g X).2 = .ok vs) :
    (∀ l ∈ a.leaves, ∃ v, (l.eval cdf pdf g X).2 = .ok v) ∧ (a.eval cdf pdf pw g X).1 = (a.leaves.map fun l => (l.eval cdf pdf g X).1).sum := by
  induction a generalizing vs with
  | leaf l => exact ⟨fun l' hl => (by rw [List.mem_singleton.1 hl]; exact ⟨vs, h⟩), by simp [Af.leaves, Af.eval]⟩
  | sum a b iha ihb =>
    rw [Af.eval] at h ⊢
    rcases ha : a.eval cdf pdf pw g X with ⟨k, e1 | u⟩
    · rw [ha] at h; cases h
    rcases hb : b.eval cdf pdf pw g X with ⟨k', e2 | v⟩
    · rw [ha] at h; simp only [hb] at h; cases h
    obtain ⟨h1, h2⟩ := iha u (by rw [ha])
    obtain ⟨h3, h4⟩ := ihb v (by rw [hb])
    rw [ha] at h2
    rw [hb] at h4
    dsimp only at h2 h4
    refine ⟨fun l hl => (List.mem_append.1 hl).elim (h1 l) (h3 l), ?_⟩
    simp only [hb, h2, h4, Af.leaves, List.map_append, List.sum_append]
  | prod a b iha ihb =>
    rw [Af.eval] at h ⊢
    rcases ha : a.eval cdf pdf pw g X with ⟨k, e1 | u⟩
    · rw [ha] at h; cases h
    rcases hb : b.eval cdf pdf pw g X with ⟨k', e2 | v⟩
    · rw [ha] at h; simp only [hb] at h; cases h
    obtain ⟨h1, h2⟩ := iha u (by rw [ha])
    obtain ⟨h3, h4⟩ := ihb v (by rw [hb])
    rw [ha] at h2
    rw [hb] at h4
    dsimp only at h2 h4
    refine ⟨fun l hl => (List.mem_append.1 hl).elim (h1 l) (h3 l), ?_⟩
    simp only [hb, h2, h4, Af.leaves, List.map_append, List.sum_append]
  | pow a p iha =>
    rw [Af.eval] at h ⊢
    rcases ha : a.eval cdf pdf pw g X with ⟨k, _ | u⟩
    · rw [ha] at h; cases h
    have h1 := iha u (by rw [ha])
    rw [ha] at h1
    exact h1

/-- **C141**: an expression raises the error of the first function that raises, from left to right; the points of the functions up to it have been counted. -/
theorem C141_first_error (g : Surrogate d n) (X : List (Fin d → ℝ)) (a : Af) (e : Acq.Err) (h : (a.eval cdf pdf pw g X).2 = .error e) :
    ∃ pre l post, a.leaves = pre ++ l :: post ∧ (l.eval cdf pdf g X).2 = .error e ∧ (∀ l' ∈ pre, ∃ v, (l'.eval cdf pdf g X).2 = .ok v) ∧
      (a.eval cdf pdf pw g X).1 = ((pre ++ [l]).map fun l => (l.eval cdf pdf g X).1).sum := by
  induction a generalizing e with
  | leaf l => exact ⟨[], l, [], rfl, h, by simp, by simp [Af.eval]⟩
  | sum a b iha ihb =>
    rw [Af.eval] at h ⊢
    rcases ha : a.eval cdf pdf pw g X with ⟨k, e1 | u⟩
    · rw [ha] at h
      cases h
      obtain ⟨pre, l, post, h1, h2, h3, h4⟩ := iha e (by rw [ha])
      rw [ha] at h4
      exact ⟨pre, l, post ++ b.leaves, by simp [Af.leaves, h1], h2, h3, h4⟩
    rcases hb : b.eval cdf pdf pw g X with ⟨k', e2 | v⟩
    · rw [ha] at h
      simp only [hb] at h
      cases h
      obtain ⟨pre, l, post, h1, h2, h3, h4⟩ := ihb e (by rw [hb])
      obtain ⟨g1, g2⟩ := eval_leaves cdf pdf pw g X a u (by rw [ha])
      rw [hb] at h4
      rw [ha] at g2
      refine ⟨a.leaves ++ pre, l, post, by simp [Af.leaves, h1], h2, fun l' hl => (List.mem_append.1 hl).elim (g1 l') (h3 l'), ?_⟩
      dsimp only at g2 h4
      simp only [hb, g2, h4, List.append_assoc, List.map_append, List.sum_append]
    · rw [ha] at h; simp only [hb] at h; cases h
  | prod a b iha ihb =>
    rw [Af.eval] at h ⊢
    rcases ha : a.eval cdf pdf pw g X with ⟨k, e1 | u⟩
    · rw [ha] at h
      cases h
      obtain ⟨pre, l, post, h1, h2, h3, h4⟩ := iha e (by rw [ha])
      rw [ha] at h4
      exact ⟨pre, l, post ++ b.leaves, by simp [Af.leaves, h1], h2, h3, h4⟩
    rcases hb : b.eval cdf pdf pw g X with ⟨k', e2 | v⟩
    · rw [ha] at h
      simp only [hb] at h
      cases h
      obtain ⟨pre, l, post, h1, h2, h3, h4⟩ := ihb e (by rw [hb])
      obtain ⟨g1, g2⟩ := eval_leaves cdf pdf pw g X a u (by rw [ha])
      rw [hb] at h4
      rw [ha] at g2
      refine ⟨a.leaves ++ pre, l, post, by simp [Af.leaves, h1], h2, fun l' hl => (List.mem_append.1 hl).elim (g1 l') (h3 l'), ?_⟩
      dsimp only at g2 h4
      simp only [hb, g2, h4, List.append_assoc, List.map_append, List.sum_append]
    · rw [ha] at h; simp only [hb] at h; cases h
  | pow a p iha =>
    rw [Af.eval] at h ⊢
    rcases ha : a.eval cdf pdf pw g X with ⟨k, e1 | u⟩
    · rw [ha] at h
      cases h
      have := iha e (by rw [ha])
      rw [ha] at this
      exact this
    · rw [ha] at h; cases h

/-- **C141** (expected improvement, partial: false where the mean is infinite and the standard deviation is not zero, see the counterexample): it is
zero where the standard deviation is, and else the formula of C126. -/
theorem C141_ei_partial (g : Surrogate d n) (xi : ℝ) (x : Fin d → ℝ) (m s : ℝ) (hp : g.st.predict [x] false = .ok ([.fin m], [s])) :
    (Leaf.eval cdf pdf g [x] (.ei xi)).2 = .ok [.fin (eiValue cdf pdf g.yMax xi m s)] := by
  rw [Leaf.eval, noGrad_ok.2 hp]
  show Except.ok (eiValues cdf pdf g.yMax xi [.fin m] [s]) = _
  rw [eiValues_eq _ _ _ _ _ _ rfl]
  unfold eiValue
  simp only [List.zipWith_cons_cons, List.zipWith_nil_right, ei1, Except.ok.injEq, List.cons.injEq, and_true]
  split_ifs with hs
  · simp [eiEntry, Ext.subFin, Ext.divFin, hs.ne', add, mul, mulR, Ext.neg, Ext.sub]
  · rfl

/-- **C141**: `NonlinearLogExp` is minus infinity exactly where the mean is not a number or the standard deviation does not exceed the noise, and it prefers
points with larger mean (for positive zeta), or larger standard deviation, as `LogExp` does. -/
theorem C141_nonlinear (g : Surrogate d n) (zeta noise : ℝ) (hn : 0 ≤ noise) (x : Fin d → ℝ) (m : Ext ℝ) (s : ℝ) (hs : 0 ≤ s) (hp : g.st.predict [x] false = .ok ([m], [s])) :
    ∃ v, (Leaf.eval cdf pdf g [x] (.nonlinear zeta (some noise))).2 = .ok [v] ∧ (v = .negInf ↔ s ≤ noise ∨ ¬ ∃ k, m = .fin k) ∧ v ≠ .posInf ∧ v ≠ .nan ∧
    ∀ (x' : Fin d → ℝ) (m' s' k : ℝ), g.st.predict [x'] false = .ok ([.fin m'], [s']) → m = .fin k → noise < s →
      (0 < zeta ∧ k < m' ∧ s ≤ s' ∨ 0 ≤ zeta ∧ k ≤ m' ∧ s < s') →
      ∃ v', (Leaf.eval cdf pdf g [x'] (.nonlinear zeta (some noise))).2 = .ok [v'] ∧ Ext.lt v v' = true := by
  have sq : ∀ t : ℝ, 0 ≤ t → (noise ^ 2 < t ^ 2 ↔ noise < t) := fun t ht => sq_lt_sq₀ hn ht
  have val : ∀ (x : Fin d → ℝ) (m : Ext ℝ) (s : ℝ), g.st.predict [x] false = .ok ([m], [s]) →
      (Leaf.eval cdf pdf g [x] (.nonlinear zeta (some noise))).2 = .ok [nonlinear1 zeta noise g.yMax m s] := by
    intro x m s hp
    rw [Leaf.eval, noGrad_ok.2 hp]
    show Except.ok (nonlinearValues zeta noise g.yMax [m] [s]) = _
    rw [nonlinearValues_eq _ _ _ _ _ rfl]
    rfl
  refine ⟨_, val x m s hp, ?_, ?_, ?_, ?_⟩
  · unfold nonlinear1
    cases m with
    | fin k => dsimp only; split_ifs with h <;> rw [sq s hs] at h <;> simp [h, not_lt.1, not_le.2]
    | _ => simp
  · unfold nonlinear1
    cases m with
    | fin k => dsimp only; split_ifs <;> simp
    | _ => simp
  · unfold nonlinear1
    cases m with
    | fin k => dsimp only; split_ifs <;> simp
    | _ => simp
  · rintro x' m' s' k hp' rfl hns hlt
    refine ⟨_, val x' _ _ hp', ?_⟩
    have hss : s ≤ s' := by rcases hlt with h | h <;> linarith [h.2.2]
    unfold nonlinear1
    dsimp only
    rw [if_pos ((sq s hs).2 hns), if_pos ((sq s' (hs.trans hss)).2 (hns.trans_le hss))]
    have h0 : 0 < s ^ 2 - noise ^ 2 := sub_pos.2 ((sq s hs).2 hns)
    have h1 : 1 < Real.exp (Real.sqrt (s ^ 2 - noise ^ 2)) := Real.one_lt_exp_iff.2 (Real.sqrt_pos.2 h0)
    simp only [Ext.lt, decide_eq_true_eq]
    rcases hlt with ⟨hz, hk, -⟩ | ⟨hz, hk, hlt⟩
    · have h2 : Real.log (Real.exp (Real.sqrt (s ^ 2 - noise ^ 2)) - 1) ≤ Real.log (Real.exp (Real.sqrt (s' ^ 2 - noise ^ 2)) - 1) := by
        apply Real.log_le_log (by linarith)
        have := Real.exp_le_exp.2 (Real.sqrt_le_sqrt (show s ^ 2 - noise ^ 2 ≤ s' ^ 2 - noise ^ 2 by nlinarith))
        linarith
      nlinarith
    · have h2 : Real.log (Real.exp (Real.sqrt (s ^ 2 - noise ^ 2)) - 1) < Real.log (Real.exp (Real.sqrt (s' ^ 2 - noise ^ 2)) - 1) := by
        apply Real.log_lt_log (by linarith)
        have := Real.exp_lt_exp.2 (Real.sqrt_lt_sqrt h0.le (show s ^ 2 - noise ^ 2 < s' ^ 2 - noise ^ 2 by nlinarith))
        linarith
      nlinarith

/-- **C141**, exponentials: zero where the mean is minus infinity and `a` is positive. -/
theorem C141_exponential (g : Surrogate d n) (a : ℝ) (x : Fin d → ℝ) (hg : g.gradOk x = true) (m : Ext ℝ) (s : ℝ)
    (hp : g.st.predict [x] false = .ok ([m], [s])) :
    (∀ v, m = .fin v → (Leaf.eval cdf pdf g [x] (.expMu a)).2 = .ok [.fin (Real.exp (a * v))]) ∧
    (m = .negInf → 0 < a → (Leaf.eval cdf pdf g [x] (.expMu a)).2 = .ok [.fin 0]) ∧
    (Leaf.eval cdf pdf g [x] (.expStd a)).2 = .ok [.fin (Real.exp (a * s))] := by
  have hw : withGrad g [x] = .ok ([m], [s]) := by
    unfold withGrad
    rw [hp]
    simp [hg]
  refine ⟨?_, ?_, ?_⟩
  · rintro v rfl
    rw [Leaf.eval, hw]; rfl
  · rintro rfl ha
    rw [Leaf.eval, hw]
    show Except.ok [exp (mulR a .negInf)] = _
    rw [mulR, if_neg ha.ne', if_pos ha]
    rfl
  · rw [Leaf.eval, hw]; rfl

/-- **C141**: a negative `a` makes the points whose mean is minus infinity the best ones, and `a = 0` gives NaN there. -/
theorem C141_exponential_negative (g : Surrogate d n) (a : ℝ) (x : Fin d → ℝ) (hg : g.gradOk x = true) (s : ℝ)
    (hp : g.st.predict [x] false = .ok ([.negInf], [s])) :
    (a < 0 → (Leaf.eval cdf pdf g [x] (.expMu a)).2 = .ok [.posInf]) ∧
    (a = 0 → (Leaf.eval cdf pdf g [x] (.expMu a)).2 = .ok [.nan]) := by
  have hw : withGrad g [x] = .ok ([.negInf], [s]) := by
    unfold withGrad
    rw [hp]
    simp [hg]
  constructor
  · intro ha
    rw [Leaf.eval, hw]
    show Except.ok [exp (mulR a .negInf)] = _
    rw [mulR, if_neg ha.ne, if_neg ha.le.not_gt]
    rfl
  · intro ha
    rw [Leaf.eval, hw]
    show Except.ok [exp (mulR a .negInf)] = _
    rw [mulR, if_pos ha]
    rfl

/-- **C141** is false of the expected improvement with a trust region: out of it (where the classifier accepts the point and the standard deviation is not zero) the value is NaN. -/
theorem C141_ei_counterexample (g : Surrogate d n) (hfit : g.st.fitted = true) (hminf : g.st.minf = .negInf) (hs : 0 ≤ g.st.M.s) (xi : ℝ)
    (x : Fin d → ℝ) (ms : List (Ext ℝ)) (ss : List ℝ) (hp : g.st.predict [x] false = .ok (ms, ss)) (ho : g.st.Outside false x)
    (hi : ¬ g.st.Infinite x) (hpos : 0 < g.st.M.std g.st.chol g.st.R x) : (Leaf.eval cdf pdf g [x] (.ei xi)).2 = .ok [.nan] := by
  obtain ⟨h1, h2, h3⟩ := C14_predict g.st hfit hminf hs [x] false ms ss hp
  match ms, ss, h1, h2 with
  | [m], [s], _, _ =>
    obtain ⟨a, _, _, _, b⟩ := h3 0 (by simp) (by simp) (by simp)
    have hm : m = .negInf := a.2 (Or.inr ho)
    have hs' : s = g.st.M.std g.st.chol g.st.R x := b hi
    rw [Leaf.eval, noGrad_ok.2 hp]
    show Except.ok (eiValues cdf pdf g.yMax xi [m] [s]) = _
    rw [eiValues_eq _ _ _ _ _ _ rfl]
    have hs0 : 0 < s := by rw [hs']; exact hpos
    simp [ei1, hs0, hm, eiEntry, Ext.subFin, Ext.divFin, hs0.le, hs0.not_gt, mul, mulR, add, Ext.sub]

/-- C141: where the prediction is finite the expected improvement is positive or the standard deviation is zero. -/
theorem C141_ei_sign (g : Surrogate d n) (xi : ℝ) (x : Fin d → ℝ) (m s : ℝ) (hs : 0 ≤ s) (hp : g.st.predict [x] false = .ok ([.fin m], [s])) :
    ∃ v, (Leaf.eval normCdf normPdf g [x] (.ei xi)).2 = .ok [.fin v] ∧ (0 < v ↔ 0 < s) ∧ (v = 0 ↔ s = 0) := by
  refine ⟨_, C141_ei_partial _ _ g xi x m s hp, ?_⟩
  rcases hs.eq_or_lt with rfl | hs
  · simp [eiValue]
  · have := (le_max_right _ _).trans_lt (C126_bounds g.yMax xi m s hs)
    exact ⟨⟨fun _ => hs, fun _ => this⟩, ⟨fun h => absurd h this.ne', fun h => absurd h hs.ne'⟩⟩

/-! ## Each theorem applied to concrete data -/

/-- The surrogate of C67: RBF kernel, training point 0, with a trust region. -/
noncomputable def exG : Surrogate 1 1 := ⟨{ exStd with trust := some fun _ => (-1 / 2, 1 / 2) }, .scalar (1 / 10), 0, fun _ => true⟩

theorem exG_std : 0 < exG.st.M.std exG.st.chol exG.st.R (fun _ => 1) := by
  have h : exG.st.M.std exG.st.chol exG.st.R (fun _ => 1) = (exStd.M.data exStd.R).std exStd.chol exStd.M.k (fun _ => 1) * 2 := rfl
  rw [h]
  have he : Real.exp (-1) < 1 := by rw [Real.exp_lt_one_iff]; norm_num
  unfold Gp.Data.std
  dsimp only
  rw [exStd_rawVar, if_neg (by linarith)]
  exact mul_pos (Real.sqrt_pos.2 (by linarith)) (by norm_num)

/-- `LogExp` plus twice the standard deviation at three points, and at the second alone. -/
example (vs : List (Ext ℝ)) (h : ((Af.sum (.leaf (.logExp 1 none)) (.prod (.leaf (.const 2)) (.leaf (.std 1)))).eval normCdf normPdf (fun _ x => x) exG
    [fun _ => 0, fun _ => 1 / 4, fun _ => 1]).2 = .ok vs) : vs.length = 3 ∧
    ∃ v, ((Af.sum (.leaf (.logExp 1 none)) (.prod (.leaf (.const 2)) (.leaf (.std 1)))).eval normCdf normPdf (fun _ x => x) exG [fun _ => 1 / 4]).2 = .ok [v] := by
  obtain ⟨h1, h2⟩ := C141_pointwise normCdf normPdf (fun _ x => x) exG rfl (by intro c hc; cases hc) _ _ vs h
  obtain ⟨_, e⟩ := h2 1 (by simp)
  exact ⟨h1, _, e⟩

example : ∃ vs, ((Af.sum (.leaf (.logExp 1 none)) (.leaf (.ei 1))).eval normCdf normPdf (fun _ x => x) exG [fun _ => 0, fun _ => 1 / 4]).2 = .ok vs :=
  (C141_returns_iff normCdf normPdf (fun _ x => x) exG (by intro c hc; cases hc) _ _).2 fun h => by simp [Af.Exponential, Leaf.Exponential] at h

example : ¬ ∃ vs, ((Af.sum (.leaf (.logExp 1 none)) (.leaf (.expStd 1))).eval normCdf normPdf (fun _ x => x) exG [fun _ => 0, fun _ => 1 / 4]).2 = .ok vs := fun h => by
  have := (C141_returns_iff normCdf normPdf (fun _ x => x) exG (by intro c hc; cases hc) _ _).1 h (Or.inr trivial)
  simp at this

example (vs : List (Ext ℝ)) (h : ((Af.sum (.leaf (.logExp 1 none)) (.leaf (.ei 1))).eval normCdf normPdf (fun _ x => x) exG [fun _ => 0, fun _ => 1 / 4, fun _ => 7]).2 = .ok vs) :
    ((Af.sum (.leaf (.logExp 1 none)) (.leaf (.ei 1))).eval normCdf normPdf (fun _ x => x) exG [fun _ => 0, fun _ => 1 / 4, fun _ => 7]).1 = 6 :=
  C141_count normCdf normPdf (fun _ x => x) exG _ _ vs h

example (e : Acq.Err) (h : ((Af.sum (.leaf (.logExp 1 none)) (.prod (.leaf (.expStd 1)) (.leaf (.std 1)))).eval normCdf normPdf (fun _ x => x) exG [fun _ => 0, fun _ => 1 / 4]).2 = .error e) :
    ((Af.sum (.leaf (.logExp 1 none)) (.prod (.leaf (.expStd 1)) (.leaf (.std 1)))).eval normCdf normPdf (fun _ x => x) exG [fun _ => 0, fun _ => 1 / 4]).1 = 4 := by
  obtain ⟨pre, l, post, h1, h2, h3, h4⟩ := C141_first_error normCdf normPdf (fun _ x => x) exG _ _ e h
  have r := fun l => leaf_returns normCdf normPdf exG (by intro c hc; cases hc) [fun _ => 0, fun _ => 1 / 4] l
  rw [h4]
  match pre, h1, h3 with
  | [], h1, _ =>
    cases h1
    obtain ⟨v, hv⟩ := (r (.logExp 1 none)).2 fun h => h.elim
    rw [hv] at h2; cases h2
  | [_], h1, _ => cases h1; rfl
  | [_, _], h1, h3 =>
    cases h1
    have := (r (.expStd 1)).1 (h3 _ (by simp)) trivial
    simp at this
  | _ :: _ :: _ :: pre, h1, _ => simp [Af.leaves] at h1

theorem exG_outside : exG.st.Outside false fun _ => 1 := ⟨rfl, _, rfl, 0, Or.inr (by norm_num)⟩

example : (Leaf.eval normCdf normPdf exG [fun _ => 1] (.ei (1 / 100))).2 = .ok [.nan] := by
  obtain ⟨ms, ss, hp⟩ := C14_returns exG.st (by intro c hc; cases hc) [fun _ => 1] false
  exact C141_ei_counterexample normCdf normPdf exG rfl rfl (show (0 : ℝ) ≤ 2 by norm_num) _ _ ms ss hp exG_outside (by rintro ⟨c, hc, -⟩; cases hc) exG_std

/-- A point within the trust region has a finite prediction. -/
theorem exG_inside : ∃ m s : ℝ, 0 ≤ s ∧ exG.st.predict [fun _ => 1 / 4] false = .ok ([.fin m], [s]) := by
  obtain ⟨ms, ss, hp⟩ := C14_returns exG.st (by intro c hc; cases hc) [fun _ => 1 / 4] false
  obtain ⟨h1, h2, h3⟩ := C14_predict exG.st rfl rfl (show (0 : ℝ) ≤ 2 by norm_num) _ false ms ss hp
  match ms, ss, h1, h2 with
  | [m], [s], _, _ =>
    obtain ⟨a, b, c, -⟩ := h3 0 (by simp) (by simp) (by simp)
    have hm : m ≠ .negInf := fun hm => (a.1 hm).elim (by rintro ⟨c, hc, -⟩; cases hc) (by
      rintro ⟨-, b, hb, j, hj⟩
      have : b = fun _ => (-1 / 2, 1 / 2) := (Option.some.inj hb).symm
      subst this
      rcases hj with hj | hj <;> norm_num at hj)
    obtain ⟨v, hv, -⟩ := b hm
    exact ⟨v, s, c, by rw [hp, show m = .fin v from hv]⟩

example : ∃ v, (Leaf.eval normCdf normPdf exG [fun _ => 1 / 4] (.ei (1 / 100))).2 = .ok [.fin v] ∧ 0 ≤ v := by
  obtain ⟨m, s, hs, hp⟩ := exG_inside
  obtain ⟨v, hv, h1, h2⟩ := C141_ei_sign exG (1 / 100) _ m s hs hp
  refine ⟨v, hv, ?_⟩
  rcases hs.eq_or_lt with h | h
  · exact (h2.2 h.symm).ge
  · exact (h1.2 h).le

example : ∃ v, (Leaf.eval normCdf normPdf exG [fun _ => 1 / 4] (.nonlinear 1 (some 0))).2 = .ok [v] ∧ v ≠ .nan := by
  obtain ⟨m, s, hs, hp⟩ := exG_inside
  obtain ⟨v, hv, -, -, h, -⟩ := C141_nonlinear normCdf normPdf exG 1 0 le_rfl _ _ s hs hp
  exact ⟨v, hv, h⟩

example : ∃ v, (Leaf.eval normCdf normPdf exG [fun _ => 1 / 4] (.ei (1 / 100))).2 = .ok [.fin v] := by
  obtain ⟨m, s, hs, hp⟩ := exG_inside
  exact ⟨_, C141_ei_partial normCdf normPdf exG (1 / 100) _ m s hp⟩

example : ∃ v w, (Leaf.eval normCdf normPdf exG [fun _ => 1 / 4] (.expMu 2)).2 = .ok [.fin (Real.exp v)] ∧
    (Leaf.eval normCdf normPdf exG [fun _ => 1 / 4] (.expStd 2)).2 = .ok [.fin (Real.exp w)] := by
  obtain ⟨m, s, hs, hp⟩ := exG_inside
  obtain ⟨h1, -, h3⟩ := C141_exponential normCdf normPdf exG 2 _ rfl _ s hp
  exact ⟨_, _, h1 m rfl, h3⟩

example : (Leaf.eval normCdf normPdf exG [fun _ => 1] (.expMu (-1))).2 = .ok [.posInf] := by
  obtain ⟨ms, ss, hp⟩ := C14_returns exG.st (by intro c hc; cases hc) [fun _ => 1] false
  obtain ⟨h1, h2, h3⟩ := C14_predict exG.st rfl rfl (show (0 : ℝ) ≤ 2 by norm_num) _ false ms ss hp
  match ms, ss, h1, h2 with
  | [m], [s], _, _ =>
    obtain ⟨a, -⟩ := h3 0 (by simp) (by simp) (by simp)
    have hm : m = .negInf := a.2 (Or.inr exG_outside)
    subst hm
    exact (C141_exponential_negative normCdf normPdf exG (-1) _ rfl s hp).1 (by norm_num)

end GPry.AcqPts
