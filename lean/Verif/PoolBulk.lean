import Verif.PoolAdd

/-!
# `RankedPool.add_bulk` (proofs)
-/

set_option linter.all false

namespace GPry.Ranked

open GPry.Gpr (maskL)

variable {P Y V : Type*} [LinearOrder V] [BoundedOrder V]

/-! ## `np.argmax` -/

theorem argmaxAux_spec {α : Type*} (w : α → V) : ∀ (l pre : List α) (best : ℕ) (t : α), pre[best]? = some t →
    (∀ u ∈ pre, w u ≤ w t) →
    ∃ t', (pre ++ l)[argmaxAux (l.map fun u => some (w u)) pre.length best (some (w t))]? = some t' ∧
      ∀ u ∈ pre ++ l, w u ≤ w t' := by
  intro l
  induction l with
  | nil =>
    intro pre best t ht hle
    exact ⟨t, by simpa [argmaxAux] using ht, by simpa using hle⟩
  | cons a l ih =>
    intro pre best t ht hle
    simp only [List.map_cons, argmaxAux]
    have hbl : best < pre.length := by
      by_contra h
      rw [List.getElem?_eq_none (by omega)] at ht
      exact absurd ht (by simp)
    split
    · rename_i hlt
      obtain ⟨t', h1, h2⟩ := ih (pre ++ [a]) pre.length a (by simp) (by
        intro u hu
        rcases List.mem_append.1 hu with h | h
        · exact (hle u h).trans hlt.le
        · simp at h; rw [h])
      refine ⟨t', ?_, ?_⟩
      · simpa using h1
      · simpa using h2
    · rename_i hlt
      rw [not_lt] at hlt
      obtain ⟨t', h1, h2⟩ := ih (pre ++ [a]) best t (by rw [List.getElem?_append_left hbl]; exact ht) (by
        intro u hu
        rcases List.mem_append.1 hu with h | h
        · exact hle u h
        · simp at h; rw [h]; exact hlt)
      refine ⟨t', ?_, ?_⟩
      · simpa using h1
      · simpa using h2

theorem argmax_spec {α : Type*} (w : α → V) (l : List α) (hne : l ≠ []) :
    ∃ t, l[argmax (l.map fun u => some (w u))]? = some t ∧ ∀ u ∈ l, w u ≤ w t := by
  cases l with
  | nil => exact absurd rfl hne
  | cons a l =>
    have := argmaxAux_spec w l [a] 0 a rfl (by simp)
    simpa [argmax] using this

/-! ## Masks -/

theorem maskL_map {α β : Type*} (g : α → β) : ∀ (m : List Bool) (l : List α), maskL m (l.map g) = (maskL m l).map g := by
  intro m
  induction m with
  | nil => intro l; simp [maskL]
  | cons b m ih =>
    intro l
    cases l with
    | nil => cases b <;> simp [maskL]
    | cons a l => cases b <;> simp [maskL, ih]

theorem maskL_filter {α : Type*} (q : α → Bool) (l : List α) : maskL (l.map q) l = l.filter q := by
  induction l with
  | nil => simp [maskL]
  | cons a l ih => cases h : q a <;> simp [maskL, h, ih]

theorem maskL_set {α : Type*} : ∀ (m : List Bool) (l : List α) (i : ℕ) (t : α), l[i]? = some t → m[i]? = some true →
    (maskL m l).Perm (t :: maskL (m.set i false) l) := by
  intro m
  induction m with
  | nil => intro l i t _ h; simp at h
  | cons b m ih =>
    intro l i t h1 h2
    cases l with
    | nil => simp at h1
    | cons a l =>
      cases i with
      | zero => simp at h1 h2; subst h1 h2; simp [maskL]
      | succ i =>
        simp at h1 h2
        have := ih l i t h1 h2
        cases b
        · simpa [maskL] using this
        · simp only [maskL, List.set_cons_succ]
          exact (this.cons a).trans (List.Perm.swap _ _ _)

theorem maskL_false {α : Type*} : ∀ (m : List Bool) (l : List α), (∀ b ∈ m, b = false) → maskL m l = [] := by
  intro m
  induction m with
  | nil => intro l _; simp [maskL]
  | cons b m ih =>
    intro l h
    have hb := h b List.mem_cons_self
    subst hb
    cases l with
    | nil => simp [maskL]
    | cons a l => simpa [maskL] using ih l (fun b hb => h b (List.mem_cons_of_mem _ hb))

/-! ## Greedy selection -/

/-- Greedy selection with the candidates of null value dropped along the way: `g pre e` is the value of the candidate
`e` given the points `pre` chosen before. -/
def Picks (g : List (P × Y) → Ent P Y V → V) : List (P × Y) → List (Ent P Y V) → List (Slot P Y V) → Prop
  | _, _, [] => True
  | pre, c, t :: rest =>
    (t.2 = ⊥ ∧ (∀ e ∈ c, g pre e = ⊥) ∧ ∀ r ∈ rest, r.2 = ⊥) ∨
    (t.2 ≠ ⊥ ∧ t.2 = g pre t.1 ∧ (∀ e ∈ c, g pre e ≤ t.2) ∧
      ∃ c', c.Perm (t.1 :: c') ∧ Picks g (pre ++ [(t.1.x, t.1.y)]) (c'.filter fun e => decide (g pre e ≠ ⊥)) rest)

/-- Values used by `add_bulk`: the given ones at the top, conditioned ones below. -/
def lvl (f : List (P × Y) → P → Y → V) (pre : List (P × Y)) (e : Ent P Y V) : V :=
  if pre = [] then e.a else f pre e.x e.y

theorem picks_congr (g : List (P × Y) → Ent P Y V → V) : ∀ (D : List (Slot P Y V)) (pre) (c c' : List (Ent P Y V)),
    c.Perm c' → Picks g pre c D → Picks g pre c' D := by
  intro D
  cases D with
  | nil => intros; trivial
  | cons t D =>
    intro pre c c' hc h
    rcases h with ⟨h1, h2, h3⟩ | ⟨h1, h2, h3, c2, h4, h5⟩
    · exact Or.inl ⟨h1, fun e he => h2 e (hc.mem_iff.2 he), h3⟩
    · exact Or.inr ⟨h1, h2, fun e he => h3 e (hc.mem_iff.2 he), c2, hc.symm.trans h4, h5⟩

theorem filter_rm (q : Ent P Y V → Bool) (c m : List (Ent P Y V)) (t : Ent P Y V) (hq : q t = true)
    (h : (c.filter q).Perm (t :: m)) (ht : t ∈ c) :
    ∃ c', c.Perm (t :: c') ∧ (c'.filter q).Perm m := by
  obtain ⟨s, r, rfl⟩ := List.append_of_mem ht
  refine ⟨s ++ r, List.perm_middle, ?_⟩
  have : ((s ++ t :: r).filter q).Perm (t :: (s ++ r).filter q) := by
    rw [List.filter_append, List.filter_cons, if_pos hq, List.filter_append]
    exact List.perm_middle
  exact (List.perm_cons _).1 (this.symm.trans h)

theorem bulkFrom_spec {cfg : Cfg P Y V} {f : List (P × Y) → P → Y → V}
    (hcond : cfg.cond = fun pre x y => some (f pre x y)) (hfin : ∀ pre x y, f pre x y ≠ ⊤) {size : ℕ} :
    ∀ (n : ℕ) (U R : List (Slot P Y V)) (b : Ent P Y V) (cache) (c : List (Ent P Y V)),
      U.length + (n + 1) = size → R.length = n + 1 → (∀ t ∈ R, t.2 = ⊥) → (∀ e ∈ c, e.a ≠ ⊤) →
      ∃ D cache', bulkFrom cfg (c.map (·.x)) (c.map (·.y)) (c.map (·.s)) (c.map fun e => some e.a) n
          (ofSlots (U ++ R ++ [(b, ⊥)]) cache) = ofSlots (U ++ D ++ [(b, ⊥)]) cache' ∧ D.length = n + 1 ∧
        Picks (lvl f) (lies U) c D := by
  intro n
  induction n with
  | zero =>
    intro U R b cache c hU hRl hR hc
    obtain ⟨r, rfl⟩ := List.length_eq_one_iff.1 hRl
    have hlen : (ofSlots (U ++ [r] ++ [(b, ⊥)]) cache).len = size := by simp; omega
    rw [bulkFrom]
    dsimp only
    rw [hlen]
    have hi : size - 1 - 0 = U.length := by omega
    rw [hi]
    obtain ⟨cache1, hcm⟩ : ∃ cache1, (ofSlots (U ++ [r] ++ [(b, (⊥ : V))]) cache).cacheModel U.length =
        ofSlots (U ++ [r] ++ [(b, ⊥)]) cache1 := by
      by_cases h : U.length = 0
      · exact ⟨cache, by simp [Pool.cacheModel, h]⟩
      · exact ⟨_, cacheModel_ofSlots _ _ _ h⟩
    rw [hcm]
    have hac : (if U.length = 0 then c.map (fun e => some e.a) else ((c.map (·.x)).zip (c.map (·.y))).map fun q =>
        cfg.cond ((ofSlots (U ++ [r] ++ [(b, ⊥)]) cache1).pre U.length) q.1 q.2) =
        c.map fun e => some (lvl f (lies U) e) := by
      rw [pre_ofSlots]
      split
      · have : U = [] := List.length_eq_zero_iff.1 ‹_›
        subst this
        simp [lvl, lies]
      · rename_i h
        have : lies U ≠ [] := by
          intro h'; apply h; simpa [lies] using congrArg List.length h'
        simp [List.zip_map', List.map_map, hcond, lvl, this, Function.comp_def]
    rw [hac]
    by_cases hce : c = []
    · subst hce
      exact ⟨[r], cache1, by simp, rfl, Or.inl ⟨hR r (by simp), by simp, by simp⟩⟩
    · obtain ⟨t, ht, hmax⟩ := argmax_spec (lvl f (lies U)) c hce
      set im := argmax (c.map fun e => some (lvl f (lies U) e)) with him
      rw [List.getElem?_map, List.getElem?_map, List.getElem?_map, List.getElem?_map, List.getElem?_map, ht]
      simp only [Option.map_some]
      have htop : ¬ (some (lvl f (lies U) t) = some ⊤) := by
        intro h
        have h := Option.some.inj h
        unfold lvl at h
        split at h
        · exact hc t (List.mem_of_getElem? ht) h
        · exact hfin _ _ _ h
      rw [if_neg htop]
      refine ⟨[(t, lvl f (lies U) t)], cache1, ?_, rfl, ?_⟩
      · simp only [ofSlots]
        congr 1 <;> simp
      · by_cases hb : lvl f (lies U) t = ⊥
        · left
          refine ⟨hb, ?_, by simp⟩
          intro e he
          have := hmax e he
          rw [hb] at this
          exact le_bot_iff.1 this
        · right
          refine ⟨hb, rfl, hmax, ?_⟩
          obtain ⟨s, r', hs⟩ := List.append_of_mem (List.mem_of_getElem? ht)
          exact ⟨s ++ r', hs ▸ List.perm_middle, trivial⟩
  | succ n ih =>
    intro U R b cache c hU hRl hR hc
    obtain ⟨r, R, rfl⟩ : ∃ r R', R = r :: R' := by
      cases R with
      | nil => simp at hRl
      | cons r R => exact ⟨r, R, rfl⟩
    have hlen : (ofSlots (U ++ r :: R ++ [(b, ⊥)]) cache).len = size := by simp at hRl ⊢; omega
    rw [bulkFrom]
    dsimp only
    rw [hlen]
    have hi : size - 1 - (n + 1) = U.length := by omega
    rw [hi]
    obtain ⟨cache1, hcm⟩ : ∃ cache1, (ofSlots (U ++ r :: R ++ [(b, (⊥ : V))]) cache).cacheModel U.length =
        ofSlots (U ++ r :: R ++ [(b, ⊥)]) cache1 := by
      by_cases h : U.length = 0
      · exact ⟨cache, by simp [Pool.cacheModel, h]⟩
      · exact ⟨_, cacheModel_ofSlots _ _ _ h⟩
    rw [hcm]
    have hac : (if U.length = 0 then c.map (fun e => some e.a) else ((c.map (·.x)).zip (c.map (·.y))).map fun q =>
        cfg.cond ((ofSlots (U ++ r :: R ++ [(b, ⊥)]) cache1).pre U.length) q.1 q.2) =
        c.map fun e => some (lvl f (lies U) e) := by
      rw [pre_ofSlots]
      split
      · have : U = [] := List.length_eq_zero_iff.1 ‹_›
        subst this
        simp [lvl, lies]
      · rename_i h
        have : lies U ≠ [] := by
          intro h'; apply h; simpa [lies] using congrArg List.length h'
        simp [List.zip_map', List.map_map, hcond, lvl, this, Function.comp_def]
    rw [hac]
    by_cases hce : c = []
    · subst hce
      exact ⟨r :: R, cache1, by simp, hRl, Or.inl ⟨hR r (by simp), by simp, fun t ht => hR t (by simp [ht])⟩⟩
    · obtain ⟨t, ht, hmax⟩ := argmax_spec (lvl f (lies U)) c hce
      set im := argmax (c.map fun e => some (lvl f (lies U) e)) with him
      rw [List.getElem?_map, List.getElem?_map, List.getElem?_map, List.getElem?_map, List.getElem?_map, ht]
      simp only [Option.map_some]
      have htop : ¬ (some (lvl f (lies U) t) = some ⊤) := by
        intro h
        have h := Option.some.inj h
        unfold lvl at h
        split at h
        · exact hc t (List.mem_of_getElem? ht) h
        · exact hfin _ _ _ h
      rw [if_neg htop]
      have hpool : ({ ofSlots (U ++ r :: R ++ [(b, ⊥)]) cache1 with
          X := (ofSlots (U ++ r :: R ++ [(b, ⊥)]) cache1).X.set U.length t.x,
          y := (ofSlots (U ++ r :: R ++ [(b, ⊥)]) cache1).y.set U.length t.y,
          sigma := (ofSlots (U ++ r :: R ++ [(b, ⊥)]) cache1).sigma.set U.length t.s,
          acq := (ofSlots (U ++ r :: R ++ [(b, ⊥)]) cache1).acq.set U.length (some t.a),
          acqCond := (ofSlots (U ++ r :: R ++ [(b, ⊥)]) cache1).acqCond.set U.length
            (some (lvl f (lies U) t)) } : Pool P Y V) =
          ofSlots ((U ++ [(t, lvl f (lies U) t)]) ++ R ++ [(b, ⊥)]) cache1 := by
        simp only [ofSlots]
        congr 1 <;> simp
      rw [hpool]
      set m1 := (c.map fun e => some (lvl f (lies U) e)).map (fun v => !decide (v = some (⊥ : V))) with hm1
      have hm1' : m1 = c.map fun e => decide (lvl f (lies U) e ≠ ⊥) := by
        rw [hm1, List.map_map]
        apply List.map_congr_left
        intro e _
        simp
      set mask := m1.set im false with hmask
      set c2 := maskL mask c with hc2
      rw [maskL_map, maskL_map, maskL_map, maskL_map, ← hc2]
      have hsub : ∀ e ∈ c2, e ∈ c := by
        have : ∀ (m : List Bool) (l : List (Ent P Y V)), ∀ e ∈ maskL m l, e ∈ l := by
          intro m
          induction m with
          | nil => intro l e h; simp [maskL] at h
          | cons b' m ihm =>
            intro l e h
            cases l with
            | nil => cases b' <;> simp [maskL] at h
            | cons a l =>
              cases b'
              · exact List.mem_cons_of_mem _ (ihm l e (by simpa [maskL] using h))
              · rcases List.mem_cons.1 (show e ∈ a :: maskL m l from h) with rfl | h
                · exact List.mem_cons_self
                · exact List.mem_cons_of_mem _ (ihm l e h)
        exact this _ _
      obtain ⟨D, cache', hrun, hDl, hD⟩ := ih (U ++ [(t, lvl f (lies U) t)]) R b cache1 c2
        (by simp; omega) (by simpa using hRl) (fun t ht => hR t (List.mem_cons_of_mem _ ht))
        (fun e he => hc e (hsub e he))
      refine ⟨(t, lvl f (lies U) t) :: D, cache', ?_, by simp [hDl], ?_⟩
      · rw [hrun]; congr 1; simp
      · by_cases hb : lvl f (lies U) t = ⊥
        · left
          have hall : ∀ e ∈ c, lvl f (lies U) e = ⊥ := by
            intro e he
            have := hmax e he
            rw [hb] at this
            exact le_bot_iff.1 this
          refine ⟨hb, hall, ?_⟩
          have hc2e : c2 = [] := by
            apply maskL_false
            intro b' hb'
            rcases List.mem_or_eq_of_mem_set hb' with h | h
            · rw [hm1'] at h
              obtain ⟨e, he, rfl⟩ := List.mem_map.1 h
              simpa using hall e he
            · exact h
          rw [hc2e] at hD
          -- nothing to pick
          have hnone : ∀ (D : List (Slot P Y V)) pre, Picks (lvl f) pre [] D → ∀ t ∈ D, t.2 = ⊥ := by
            intro D pre h t ht
            cases D with
            | nil => simp at ht
            | cons d D =>
              rcases h with ⟨h1, _, h3⟩ | ⟨_, _, _, c', h4, _⟩
              · rcases List.mem_cons.1 ht with rfl | ht
                · exact h1
                · exact h3 t ht
              · simpa using h4.length_eq
          exact hnone D _ hD
        · right
          refine ⟨hb, rfl, hmax, ?_⟩
          have hp := maskL_set m1 c im t ht (by rw [hm1', List.getElem?_map, ht]; simp [hb])
          rw [hm1', maskL_filter, ← hm1'] at hp
          obtain ⟨c', h1, h2⟩ := filter_rm _ c c2 t (by simpa using hb) hp (List.mem_of_getElem? ht)
          refine ⟨c', h1, ?_⟩
          rw [lies_append] at hD
          exact picks_congr _ _ _ _ _ h2.symm hD

end GPry.Ranked
