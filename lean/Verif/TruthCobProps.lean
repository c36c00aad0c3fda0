import Verif.TruthCob
import Mathlib.Tactic.Linarith
import Mathlib.Tactic.FieldSimp
import Mathlib.Tactic.NormNum

set_option linter.all false

/-!
# Properties of posteriors given as Cobaya models (C139)
-/

namespace GPry.TruthCob

theorem init_spec {m : Model} {t : Truth} (h : init m = some t) : t.model = m ∧ t.priorBounds = m.sampled.map (fun p => bounds1 p.2) ∧
    t.params = m.sampled.map Prod.fst ∧ (m.sampled.map Prod.fst).mapM (fun p => m.labels.lookup p) = some t.labels := by
  unfold init at h
  split at h
  · simp at h
  · rename_i l hl
    simp only [Option.some.injEq] at h
    subst h
    exact ⟨rfl, rfl, rfl, hl⟩

theorem mapM_lookup {l : List (String × String)} : ∀ {ps ls : List String}, ps.mapM (fun p => l.lookup p) = some ls →
    ls.length = ps.length ∧ ∀ (k : ℕ) (p : String), ps[k]? = some p → ∃ v, ls[k]? = some v ∧ l.lookup p = some v
  | [], ls, h => by
    simp at h
    subst h
    exact ⟨rfl, by simp⟩
  | p :: ps, ls, h => by
    rw [List.mapM_cons] at h
    cases hp : l.lookup p with
    | none => rw [hp] at h; simp at h
    | some v =>
      rw [hp] at h
      cases hr : ps.mapM (fun p => l.lookup p) with
      | none => rw [hr] at h; simp at h
      | some r =>
        rw [hr] at h
        simp at h
        subst h
        obtain ⟨h1, h2⟩ := mapM_lookup hr
        refine ⟨by simp [h1], ?_⟩
        intro k q hk
        cases k with
        | zero => simp at hk; subst hk; exact ⟨v, rfl, hp⟩
        | succ k => simp at hk; obtain ⟨w, hw, hw'⟩ := h2 k q hk; exact ⟨w, by simpa using hw, hw'⟩

/-- **C139**: one bound, name and label per sampled parameter; the label is that of the parameter. -/
theorem C139_names {m : Model} {t : Truth} (h : init m = some t) : t.priorBounds.length = m.sampled.length ∧
    t.params = m.sampled.map Prod.fst ∧ t.labels.length = m.sampled.length ∧
    ∀ (k : ℕ) (p : String), t.params[k]? = some p → ∃ v, t.labels[k]? = some v ∧ m.labels.lookup p = some v := by
  obtain ⟨h1, h2, h3, h4⟩ := init_spec h
  obtain ⟨l1, l2⟩ := mapM_lookup h4
  refine ⟨by simp [h2], h3, by simpa using l1, ?_⟩
  rw [h3]
  exact l2

theorem add_neg {a : Ext ℝ} (ha : a = .negInf ∨ ∃ r, a = .fin r) : GPry.Truth.add .negInf a = .negInf ∧ GPry.Truth.add a .negInf = .negInf := by
  rcases ha with rfl | ⟨r, rfl⟩ <;> exact ⟨rfl, rfl⟩

/-- The prior of a list of parameters. -/
theorem prior_cases (s : List (String × Dist)) (hw : ∀ p ∈ s, p.2.Wf) (x : List ℝ) :
    ((List.zipWith (fun p v => p.2.logpdf v) s x).foldr GPry.Truth.add (.fin 0) = .negInf ∨
      ∃ r, (List.zipWith (fun p v => p.2.logpdf v) s x).foldr GPry.Truth.add (.fin 0) = .fin r) ∧
    ((List.zipWith (fun p v => p.2.logpdf v) s x).foldr GPry.Truth.add (.fin 0) = .negInf ↔
      ∃ (k : ℕ) (p : String × Dist) (v : ℝ), s[k]? = some p ∧ x[k]? = some v ∧ ¬ p.2.Supp v) := by
  induction s generalizing x with
  | nil => simp
  | cons p s ih =>
    cases x with
    | nil => simp
    | cons v x =>
      rw [List.zipWith_cons_cons, List.foldr_cons]
      obtain ⟨i1, i2⟩ := ih (fun q hq => hw q (List.mem_cons_of_mem _ hq)) x
      generalize hz : (List.zipWith (fun p v => p.2.logpdf v) s x).foldr GPry.Truth.add (.fin 0) = z at i1 i2
      have hp := (hw p List.mem_cons_self).dens v
      by_cases hs : p.2.Supp v
      · obtain ⟨r, hr⟩ := hp.1 hs
        rw [hr]
        rcases i1 with rfl | ⟨r', rfl⟩
        · refine ⟨.inl rfl, ⟨fun _ => ?_, fun _ => rfl⟩⟩
          obtain ⟨k, q, w, h1, h2, h3⟩ := i2.1 rfl
          exact ⟨k + 1, q, w, by simpa using h1, by simpa using h2, h3⟩
        · refine ⟨.inr ⟨r + r', rfl⟩, ⟨fun h => by simp [GPry.Truth.add] at h, fun h => ?_⟩⟩
          obtain ⟨k, q, w, h1, h2, h3⟩ := h
          cases k with
          | zero => simp at h1 h2; subst h1; subst h2; exact absurd hs h3
          | succ k =>
            have := i2.2 ⟨k, q, w, by simpa using h1, by simpa using h2, h3⟩
            simp at this
      · rw [hp.2 hs]
        have e : GPry.Truth.add .negInf z = .negInf := (add_neg i1).1
        exact ⟨.inl e, ⟨fun _ => ⟨0, p, v, rfl, rfl, hs⟩, fun _ => e⟩⟩

theorem not_within {bs : List (ℝ × ℝ)} {x : List ℝ} (h : ¬ Within bs x) : ∃ (k : ℕ) (b : ℝ × ℝ) (v : ℝ), bs[k]? = some b ∧ x[k]? = some v ∧ ¬ (b.1 ≤ v ∧ v ≤ b.2) := by
  induction bs generalizing x with
  | nil => exact absurd trivial h
  | cons b bs ih =>
    cases x with
    | nil => exact absurd trivial h
    | cons v x =>
      by_cases hb : b.1 ≤ v ∧ v ≤ b.2
      · have : ¬ Within bs x := fun hh => h ⟨hb.1, hb.2, hh⟩
        obtain ⟨k, c, w, h1, h2, h3⟩ := ih this
        exact ⟨k + 1, c, w, by simpa using h1, by simpa using h2, h3⟩
      · exact ⟨0, b, v, rfl, rfl, hb⟩

/-- **C139**: with bounded priors, outside of the prior bounds the log-posterior is minus infinity and the likelihood is not evaluated. -/
theorem C139_outside_partial {m : Model} {t : Truth} (h : init m = some t) (hw : ∀ p ∈ m.sampled, p.2.Wf) (hb : ∀ p ∈ m.sampled, p.2.Bounded)
    (x : List ℝ) (hx : ¬ Within t.priorBounds x) : logp t x = ([], .negInf) := by
  obtain ⟨h1, h2, -, -⟩ := init_spec h
  obtain ⟨k, b, v, k1, k2, k3⟩ := not_within hx
  rw [h2, List.getElem?_map] at k1
  cases hk : m.sampled[k]? with
  | none => rw [hk] at k1; simp at k1
  | some p =>
    rw [hk] at k1
    simp only [Option.map_some, Option.some.injEq] at k1
    have hp := List.mem_of_getElem? hk
    obtain ⟨lo, hi, e1, e2⟩ := hb p hp
    have hn : logprior t x = .negInf := by
      unfold logprior
      rw [h1]
      refine (prior_cases m.sampled hw x).2.2 ⟨k, p, v, hk, k2, ?_⟩
      intro hs
      unfold Dist.Supp at hs
      unfold bounds1 at k1
      rw [e1, e2] at hs k1
      subst k1
      exact k3 hs
    unfold logp
    rw [if_pos hn]

/-- **C139**, false with a prior that is not bounded: there are points out of the prior bounds where the likelihood is evaluated. -/
theorem C139_outside_counterexample {m : Model} {t : Truth} (h : init m = some t) (hw : ∀ p ∈ m.sampled, p.2.Wf)
    (k : ℕ) (p : String × Dist) (hk : m.sampled[k]? = some p) (hu : ¬ p.2.Bounded) :
    ∃ x : List ℝ, x.length = m.sampled.length ∧ ¬ Within t.priorBounds x ∧ (∃ r, logprior t x = .fin r) ∧ (logp t x).1 = [x] := by
  obtain ⟨h1, h2, -, -⟩ := init_spec h
  have hp := hw p (List.mem_of_getElem? hk)
  have hkl : k < m.sampled.length := by
    by_contra hh
    rw [List.getElem?_eq_none (by omega)] at hk
    simp at hk
  -- a value in the support but outside of the interval
  have hv : ∃ v, p.2.Supp v ∧ ¬ ((bounds1 p.2).1 ≤ v ∧ v ≤ (bounds1 p.2).2) := by
    obtain ⟨q1, q2, q3⟩ := hp.inside
    rcases hp.low with hl | ⟨a, hl⟩
    · have hb : bounds1 p.2 = p.2.cut := by unfold bounds1; rw [hl]
      rw [hb]
      refine ⟨p.2.cut.1 - 1, ?_, fun hh => by linarith [hh.1]⟩
      have q12 := q1.2
      unfold Dist.Supp
      rw [hl]
      rcases hp.high with hh | ⟨b, hh⟩
      · rw [hh]; exact ⟨trivial, trivial⟩
      · rw [hh] at q12 ⊢
        refine ⟨trivial, ?_⟩
        dsimp only at q12 ⊢
        linarith
    · rcases hp.high with hh | ⟨b, hh⟩
      · have hb : bounds1 p.2 = p.2.cut := by unfold bounds1; rw [hl, hh]
        rw [hb]
        refine ⟨p.2.cut.2 + 1, ?_, fun hh => by linarith [hh.2]⟩
        have q21 := q2.1
        rw [hl] at q21
        unfold Dist.Supp
        rw [hl, hh]
        refine ⟨?_, trivial⟩
        dsimp only at q21 ⊢
        linarith
      · exact absurd ⟨a, b, hl, hh⟩ hu
  obtain ⟨v, hv1, hv2⟩ := hv
  refine ⟨(m.sampled.map fun q => q.2.cut.1).set k v, by simp, ?_, ?_⟩
  · intro hin
    have hW : ∀ (bs : List (ℝ × ℝ)) (x : List ℝ) (k : ℕ) (b : ℝ × ℝ) (w : ℝ), Within bs x → bs[k]? = some b → x[k]? = some w → b.1 ≤ w ∧ w ≤ b.2 := by
      intro bs
      induction bs with
      | nil => intro x k b w _ hb; simp at hb
      | cons b0 bs ih =>
        intro x k b w hx hb hxk
        cases x with
        | nil => simp at hxk
        | cons x0 x =>
          cases k with
          | zero => simp at hb hxk; subst hb; subst hxk; exact ⟨hx.1, hx.2.1⟩
          | succ k => exact ih x k b w hx.2.2 (by simpa using hb) (by simpa using hxk)
    refine hv2 (hW _ _ k (bounds1 p.2) v hin ?_ ?_)
    · rw [h2, List.getElem?_map, hk]; rfl
    · rw [List.getElem?_set_self (by simpa using hkl)]
  · have hn : logprior t ((m.sampled.map fun q => q.2.cut.1).set k v) ≠ .negInf := by
      unfold logprior
      rw [h1]
      intro hh
      obtain ⟨j, q, w, j1, j2, j3⟩ := (prior_cases m.sampled hw _).2.1 hh
      by_cases hjk : k = j
      · subst hjk
        rw [List.getElem?_set_self (by simpa using hkl)] at j2
        rw [hk] at j1
        cases j1
        cases j2
        exact j3 hv1
      · rw [List.getElem?_set_ne hjk, List.getElem?_map, j1] at j2
        simp only [Option.map_some, Option.some.injEq] at j2
        subst j2
        exact j3 (hw q (List.mem_of_getElem? j1)).inside.1
    constructor
    · have := (prior_cases m.sampled hw ((m.sampled.map fun q => q.2.cut.1).set k v)).1
      unfold logprior at hn ⊢
      rw [h1] at hn ⊢
      exact this.resolve_left hn
    · unfold logp
      rw [if_neg hn]

/-- **C139**: with uniform priors the log-prior within the bounds is minus `log_prior_volume`. -/
theorem C139_volume_partial {m : Model} {t : Truth} (h : init m = some t)
    (hu : ∀ p ∈ m.sampled, ∃ a b, p.2.lo = .fin a ∧ p.2.hi = .fin b ∧ ∀ v, a ≤ v → v ≤ b → p.2.logpdf v = .fin (- Real.log (b - a)))
    (x : List ℝ) (hl : x.length = m.sampled.length) (hx : Within t.priorBounds x) : logprior t x = .fin (- logPriorVolume t) := by
  obtain ⟨h1, h2, -, -⟩ := init_spec h
  unfold logprior logPriorVolume
  rw [h2] at hx ⊢
  rw [h1]
  clear h h1 h2
  generalize m.sampled = s at hu hl hx ⊢
  clear m t
  revert hu hl hx
  induction s generalizing x with
  | nil => intro hu hl hx; simp
  | cons p s ih =>
    intro hu hl hx
    cases x with
    | nil => simp at hl
    | cons v x =>
      obtain ⟨a, b, e1, e2, e3⟩ := hu p List.mem_cons_self
      rw [List.map_cons] at hx
      obtain ⟨x1, x2, x3⟩ := hx
      have hb : bounds1 p.2 = (a, b) := by unfold bounds1; rw [e1, e2]
      rw [hb] at x1 x2
      rw [List.zipWith_cons_cons, List.foldr_cons, e3 v x1 x2,
        ih x (fun q hq => hu q (List.mem_cons_of_mem _ hq)) (by simpa using hl) x3, List.map_cons, List.map_cons, List.sum_cons, hb]
      show Ext.fin _ = _
      congr 1
      ring

/-- **C139**: the log-posterior is the sum, the likelihood is evaluated once, at the point, unless the prior vanishes. -/
theorem C139_logp {m : Model} {t : Truth} (h : init m = some t) (hw : ∀ p ∈ m.sampled, p.2.Wf) (x : List ℝ) :
    ((∃ r, logprior t x = .fin r) ∧ logp t x = ([x], GPry.Truth.add (logprior t x) (m.loglike x))) ∨
    (logprior t x = .negInf ∧ logp t x = ([], .negInf)) := by
  obtain ⟨h1, -, -, -⟩ := init_spec h
  by_cases hn : logprior t x = .negInf
  · right
    refine ⟨hn, ?_⟩
    unfold logp
    rw [if_pos hn]
  · left
    constructor
    · have := (prior_cases m.sampled hw x).1
      unfold logprior at hn ⊢
      rw [h1] at hn ⊢
      exact this.resolve_left hn
    · unfold logp
      rw [if_neg hn, h1]

/-- **C139**: saved and loaded, it is the same, if the model is determined by its input. -/
theorem C139_reload {I : Type} {info : Model → I} {getModel : I → Option Model} {m : Model} {t : Truth} (h : init m = some t)
    (hi : getModel (info m) = some m) : reload info getModel t = some t := by
  unfold reload
  rw [(init_spec h).1, hi]
  exact h

/-! ## Examples -/

/-- Uniform between `a` and `b`. -/
noncomputable def uniform (a b : ℝ) : Dist :=
  open Classical in ⟨.fin a, .fin b, fun v => if a ≤ v ∧ v ≤ b then .fin (- Real.log (b - a)) else .negInf, (a, b)⟩

theorem uniform_wf {a b : ℝ} (h : a < b) : (uniform a b).Wf := by
  refine ⟨.inr ⟨a, rfl⟩, .inr ⟨b, rfl⟩, fun v => ⟨fun hs => ⟨_, if_pos hs⟩, fun hs => if_neg hs⟩, ?_⟩
  exact ⟨⟨le_refl _, h.le⟩, ⟨h.le, le_refl _⟩, h.le⟩

/-- A standard normal prior (without its normalisation). -/
noncomputable def normal : Dist := ⟨.negInf, .posInf, fun v => .fin (- v ^ 2 / 2), (-4, 4)⟩

theorem normal_wf : normal.Wf :=
  ⟨.inl rfl, .inl rfl, fun v => ⟨fun _ => ⟨_, rfl⟩, fun h => absurd ⟨trivial, trivial⟩ h⟩, ⟨trivial, trivial⟩, ⟨trivial, trivial⟩, by norm_num [normal]⟩

noncomputable def exModel : Model := ⟨[("x", uniform 0 2), ("y", normal)], [("x", "X"), ("z", "Z"), ("y", "Y")], fun _ => .fin 1⟩

noncomputable def exTruth : Truth := ⟨exModel, [(0, 2), (-4, 4)], ["x", "y"], ["X", "Y"]⟩

theorem exInit : init exModel = some exTruth := by rfl

theorem exWf : ∀ p ∈ exModel.sampled, p.2.Wf := by
  intro p hp
  simp only [exModel, List.mem_cons, List.not_mem_nil, or_false] at hp
  rcases hp with rfl | rfl
  · exact uniform_wf (by norm_num)
  · exact normal_wf

example : ∃ x : List ℝ, x.length = 2 ∧ ¬ Within exTruth.priorBounds x ∧ (∃ r, logprior exTruth x = .fin r) ∧ (logp exTruth x).1 = [x] :=
  C139_outside_counterexample exInit exWf 1 ("y", normal) rfl (by rintro ⟨a, b, h, -⟩; simp [normal] at h)

/-- **C139**, false if a prior is not uniform: the log-prior is not minus `log_prior_volume`. -/
theorem C139_volume_counterexample : Within exTruth.priorBounds [1, 0] ∧ logprior exTruth [1, 0] = .fin (- Real.log 2) ∧
    logPriorVolume exTruth = Real.log 2 + Real.log 8 ∧ logprior exTruth [1, 0] ≠ .fin (- logPriorVolume exTruth) := by
  have e1 : logprior exTruth [1, 0] = .fin (- Real.log 2) := by
    simp [logprior, exTruth, exModel, uniform, normal, GPry.Truth.add]
  have e2 : logPriorVolume exTruth = Real.log 2 + Real.log 8 := by
    simp [logPriorVolume, exTruth]; norm_num
  refine ⟨?_, e1, e2, ?_⟩
  · simp only [exTruth, Within]; norm_num
  · rw [e1, e2]
    intro h
    have := Ext.fin.inj h
    have h8 : 0 < Real.log 8 := Real.log_pos (by norm_num)
    linarith

noncomputable def exModel2 : Model := ⟨[("x", uniform 0 2), ("y", uniform (-1) 1)], [("x", "X"), ("y", "Y")], fun _ => .fin 1⟩

noncomputable def exTruth2 : Truth := ⟨exModel2, [(0, 2), (-1, 1)], ["x", "y"], ["X", "Y"]⟩

theorem exInit2 : init exModel2 = some exTruth2 := by rfl

theorem exWf2 : ∀ p ∈ exModel2.sampled, p.2.Wf ∧ p.2.Bounded := by
  intro p hp
  simp only [exModel2, List.mem_cons, List.not_mem_nil, or_false] at hp
  rcases hp with rfl | rfl
  · exact ⟨uniform_wf (by norm_num), _, _, rfl, rfl⟩
  · exact ⟨uniform_wf (by norm_num), _, _, rfl, rfl⟩

example : logp exTruth2 [1, 3] = ([], .negInf) :=
  C139_outside_partial exInit2 (fun p hp => (exWf2 p hp).1) (fun p hp => (exWf2 p hp).2) _ (by
    simp only [exTruth2, Within]; norm_num)

example : logprior exTruth2 [1, 0] = .fin (- logPriorVolume exTruth2) := by
  refine C139_volume_partial exInit2 ?_ _ rfl (by simp only [exTruth2, Within]; norm_num)
  intro p hp
  simp only [exModel2, List.mem_cons, List.not_mem_nil, or_false] at hp
  rcases hp with rfl | rfl
  · exact ⟨_, _, rfl, rfl, fun v h1 h2 => if_pos ⟨h1, h2⟩⟩
  · exact ⟨_, _, rfl, rfl, fun v h1 h2 => if_pos ⟨h1, h2⟩⟩

example : reload (I := Unit) (fun _ => ()) (fun _ => some exModel) exTruth = some exTruth := C139_reload exInit rfl

example : exTruth.labels[1]? = some "Y" ∧ exModel.labels.lookup "y" = some "Y" := by
  obtain ⟨v, h1, h2⟩ := (C139_names exInit).2.2.2 1 "y" rfl
  have : v = "Y" := by
    have h3 : exTruth.labels[1]? = some "Y" := rfl
    rw [h1] at h3
    exact Option.some.inj h3
  exact ⟨this ▸ h1, this ▸ h2⟩

example : (logp exTruth [1, 7]).1 = [[1, 7]] := by
  rcases C139_logp exInit exWf [1, 7] with h | h
  · rw [h.2]
  · have := h.1
    simp [logprior, exTruth, exModel, uniform, normal, GPry.Truth.add] at this

/-- A parameter without label. -/
example : init ⟨[("x", normal)], [("y", "Y")], fun _ => .fin 0⟩ = none := by rfl

end GPry.TruthCob
