import Verif.PoolProps
import Verif.MpiProps

/-!
# Properties of `add_bulk` and of the merging of pools (C22-C26, C28)
-/

set_option linter.all false

namespace GPry.Ranked

open GPry.Gpr (maskL)

variable {P Y V : Type*} [LinearOrder V] [BoundedOrder V]

/-- `add(X, y, sigma, acq, method="bulk")` on a new pool (gp_acquisition.py:1309-1311), for a list of candidates. -/
def bulkNew (cfg : Cfg P Y V) (x0 : P) (y0 : Y) (a0 : V) (size : ℕ) (l : List (Cand P Y V)) : Pool P Y V :=
  addBulk cfg (Pool.init x0 y0 a0 size) (l.map (·.1)) (l.map (·.2.1)) (l.map (·.2.2.1)) (l.map (·.2.2.2))

/-! ## Consequences of `Picks` -/

theorem picks_prefix (g : List (P × Y) → Ent P Y V → V) : ∀ (D : List (Slot P Y V)) pre c, Picks g pre c D →
    D.Pairwise fun a b => a.2 = ⊥ → b.2 = ⊥ := by
  intro D
  induction D with
  | nil => intros; exact List.Pairwise.nil
  | cons t D ih =>
    intro pre c h
    rcases h with ⟨h1, _, h3⟩ | ⟨h1, _, _, c', _, h5⟩
    · refine List.pairwise_cons.2 ⟨fun b hb _ => h3 b hb, ?_⟩
      exact List.Pairwise.imp_of_mem (R := fun _ _ => True) (fun _ hb _ _ => h3 _ hb) (List.pairwise_of_forall (fun _ _ => trivial))
    · exact List.pairwise_cons.2 ⟨fun b _ h => absurd h h1, ih _ _ h5⟩

theorem picks_occ (g : List (P × Y) → Ent P Y V → V) : ∀ (D : List (Slot P Y V)) pre c, Picks g pre c D →
    (occ D).Subperm c := by
  intro D
  induction D with
  | nil => intros; exact List.nil_subperm
  | cons t D ih =>
    intro pre c h
    rcases h with ⟨h1, _, h3⟩ | ⟨h1, _, _, c', h4, h5⟩
    · rw [occ_empty]
      · exact List.nil_subperm
      · intro t' ht'
        rcases List.mem_cons.1 ht' with rfl | ht'
        · exact h1
        · exact h3 t' ht'
    · rw [occ_cons, if_neg h1]
      have := (ih _ _ h5).trans (List.filter_sublist.subperm)
      exact ((List.subperm_cons t.1).2 this).trans h4.symm.subperm

theorem picks_desc (g : List (P × Y) → Ent P Y V → V) (hg : ∀ pre q e, g (pre ++ [q]) e ≤ g pre e) :
    ∀ (D : List (Slot P Y V)) pre c, Picks g pre c D → Desc D ∧ ∀ m, (∀ e ∈ c, g pre e ≤ m) → ∀ t ∈ D, t.2 ≤ m := by
  intro D
  induction D with
  | nil => intros; exact ⟨List.Pairwise.nil, by simp⟩
  | cons t D ih =>
    intro pre c h
    rcases h with ⟨h1, _, h3⟩ | ⟨h1, h2, h3, c', h4, h5⟩
    · have hall : ∀ u ∈ t :: D, u.2 = ⊥ := by
        intro u hu
        rcases List.mem_cons.1 hu with rfl | hu
        · exact h1
        · exact h3 u hu
      refine ⟨?_, fun m _ u hu => by rw [hall u hu]; exact bot_le⟩
      exact List.Pairwise.imp_of_mem (R := fun _ _ => True) (fun _ hb _ => by rw [hall _ hb]; exact bot_le)
        (List.pairwise_of_forall (fun _ _ => trivial))
    · obtain ⟨hd, hm⟩ := ih _ _ h5
      have hle : ∀ u ∈ D, u.2 ≤ t.2 := hm t.2 (by
        intro e he
        refine (hg _ _ _).trans (h3 e ?_)
        exact h4.mem_iff.2 (List.mem_cons_of_mem _ (List.mem_filter.1 he).1))
      refine ⟨List.pairwise_cons.2 ⟨hle, hd⟩, ?_⟩
      intro m hmc u hu
      have ht : t.2 ≤ m := by
        rw [h2]
        exact hmc _ (h4.mem_iff.2 List.mem_cons_self)
      rcases List.mem_cons.1 hu with rfl | hu
      · exact ht
      · exact (hle u hu).trans ht

theorem lvl_val {cfg : Cfg P Y V} : ∀ (D : List (Slot P Y V)) pre c, (∀ e ∈ c, e.a = val cfg [] e.x e.y) →
    Picks (lvl (val cfg)) pre c D → Picks (fun pre e => val cfg pre e.x e.y) pre c D := by
  intro D
  induction D with
  | nil => intros; trivial
  | cons t D ih =>
    intro pre c hc h
    have heq : ∀ e ∈ c, lvl (val cfg) pre e = val cfg pre e.x e.y := by
      intro e he
      unfold lvl
      split
      · rename_i h0; rw [h0]; exact hc e he
      · rfl
    rcases h with ⟨g1, g2, g3⟩ | ⟨g1, g2, g3, c', g4, g5⟩
    · exact Or.inl ⟨g1, fun e he => (heq e he).symm.trans (g2 e he), g3⟩
    · have hc' : ∀ e ∈ c', e ∈ c := fun e he => g4.mem_iff.2 (List.mem_cons_of_mem _ he)
      refine Or.inr ⟨g1, g2.trans (heq _ (g4.mem_iff.2 List.mem_cons_self)),
        fun e he => (heq e he).symm.le.trans (g3 e he), c', g4, ?_⟩
      have : (c'.filter fun e => decide (lvl (val cfg) pre e ≠ ⊥)) =
          c'.filter fun e => decide (val cfg pre e.x e.y ≠ ⊥) :=
        List.filter_congr (fun e he => by rw [heq e (hc' e he)])
      rw [← this]
      exact ih _ _ (fun e he => hc e (hc' e (List.mem_filter.1 he).1)) g5

/-- Everything about `add_bulk` on a new pool. -/
theorem bulk_init {cfg : Cfg P Y V} {f : List (P × Y) → P → Y → V}
    (hcond : cfg.cond = fun pre x y => some (f pre x y)) (hfin : ∀ pre x y, f pre x y ≠ ⊤)
    (x0 : P) (y0 : Y) (a0 : V) {size : ℕ} (hsize : 1 ≤ size)
    (es : List (Ent P Y V)) (hes : ∀ e ∈ es, e.a ≠ ⊤) :
    ∃ S b cache, bulkNew cfg x0 y0 a0 size (es.map tup) = ofSlots (S ++ [(b, ⊥)]) cache ∧ S.length = size ∧
      Picks (lvl f) [] es S := by
  have hlen : (Pool.init (V := V) x0 y0 a0 size).len = size := by rw [init_ofSlots]; simp
  obtain ⟨D, cache', h1, h2, h3⟩ := bulkFrom_spec hcond hfin (size := size) (size - 1) []
    (List.replicate size (⟨x0, y0, y0, a0⟩, (⊥ : V))) ⟨x0, y0, y0, a0⟩ (List.replicate (size + 1) none) es
    (by simp; omega) (by simp; omega) (fun t ht => by rw [List.eq_of_mem_replicate ht]) hes
  refine ⟨D, ⟨x0, y0, y0, a0⟩, cache', ?_, by omega, h3⟩
  rw [bulkNew, addBulk, hlen, init_ofSlots]
  simp only [List.map_map, Function.comp_def, tup]
  simpa using h1

theorem no_top_val {cfg : Cfg P Y V} (h : ∀ pre x y, cfg.cond pre x y ≠ some ⊤) : ∀ pre x y, val cfg pre x y ≠ ⊤ ∨
    (⊥ : V) = ⊤ := by
  intro pre x y
  unfold val
  cases h' : cfg.cond pre x y with
  | none =>
    by_cases hbt : (⊥ : V) = ⊤
    · exact Or.inr hbt
    · exact Or.inl hbt
  | some v => left; intro h2; exact h pre x y (by rw [h']; simpa using h2)

theorem no_top_val' {cfg : Cfg P Y V} (hnan : ∀ pre x y, cfg.cond pre x y ≠ none)
    (h : ∀ pre x y, cfg.cond pre x y ≠ some ⊤) (pre x y) : val cfg pre x y ≠ ⊤ := by
  intro h2
  apply h pre x y
  rw [cond_val hnan]
  simp only
  rw [h2]

/-! ## Theorems about `add_bulk` -/

/-- **C23** (bulk) The non-empty slots hold offered candidates with their own values, none more often than offered. -/
theorem C23_bulk_content {cfg : Cfg P Y V} (hnan : ∀ pre x y, cfg.cond pre x y ≠ none)
    (hinf : ∀ pre x y, cfg.cond pre x y ≠ some ⊤) (x0 : P) (y0 : Y) (a0 : V) {size : ℕ} (hsize : 1 ≤ size)
    (offered : List (Cand P Y V)) (hoff : ∀ c ∈ offered, c.2.2.2 ≠ none ∧ c.2.2.2 ≠ some ⊤) :
    (bulkNew cfg x0 y0 a0 size offered).occupied.Subperm offered := by
  obtain ⟨es, rfl⟩ := exists_ents offered (fun c hc => (hoff c hc).1)
  obtain ⟨S, b, cache, h1, h2, h3⟩ := bulk_init (cond_val hnan) (no_top_val' hnan hinf) x0 y0 a0 hsize es
    (fun e he h => (hoff (tup e) (List.mem_map.2 ⟨e, he, rfl⟩)).2 (by simp [tup, h]))
  rw [h1, occupied_ofSlots]
  obtain ⟨l, hp, hs⟩ := picks_occ _ _ _ _ h3
  exact ⟨l.map tup, hp.map _, hs.map _⟩

/-- **C24** (bulk) The first slot holds an offered candidate with the largest acquisition value. -/
theorem C24_bulk_top {cfg : Cfg P Y V} (hnan : ∀ pre x y, cfg.cond pre x y ≠ none)
    (hinf : ∀ pre x y, cfg.cond pre x y ≠ some ⊤) (x0 : P) (y0 : Y) (a0 : V) {size : ℕ} (hsize : 1 ≤ size)
    (offered : List (Cand P Y V)) (hoff : ∀ c ∈ offered, c.2.2.2 ≠ none ∧ c.2.2.2 ≠ some ⊤)
    (hex : ∃ c ∈ offered, c.2.2.2 ≠ some ⊥) :
    ∃ c ∈ offered, (bulkNew cfg x0 y0 a0 size offered).slots.head? = some (c, c.2.2.2) ∧
      (bulkNew cfg x0 y0 a0 size offered).occupied.head? = some c ∧
      ∀ c' ∈ offered, leV c'.2.2.2 c.2.2.2 = true := by
  obtain ⟨es, rfl⟩ := exists_ents offered (fun c hc => (hoff c hc).1)
  obtain ⟨S, b, cache, h1, h2, h3⟩ := bulk_init (cond_val hnan) (no_top_val' hnan hinf) x0 y0 a0 hsize es
    (fun e he h => (hoff (tup e) (List.mem_map.2 ⟨e, he, rfl⟩)).2 (by simp [tup, h]))
  obtain ⟨t, S, rfl⟩ : ∃ t S', S = t :: S' := by
    cases S with
    | nil => simp at h2; omega
    | cons t S => exact ⟨t, S, rfl⟩
  rw [h1, slots_ofSlots, occupied_ofSlots]
  obtain ⟨c, hc, hcb⟩ := hex
  obtain ⟨e0, he0, rfl⟩ := List.mem_map.1 hc
  rcases h3 with ⟨_, h4, _⟩ | ⟨h4, h5, h6, c', h7, _⟩
  · exfalso
    apply hcb
    have := h4 e0 he0
    simp only [lvl, if_true] at this
    simp [tup, this]
  · simp only [lvl, if_true] at h5 h6
    have hmem : t.1 ∈ es := h7.mem_iff.2 List.mem_cons_self
    refine ⟨tup t.1, List.mem_map.2 ⟨t.1, hmem, rfl⟩, ?_, ?_, ?_⟩
    · simp [tup, h5]
    · rw [occ_cons, if_neg h4]; rfl
    · intro c' hc'
      obtain ⟨e', he', rfl⟩ := List.mem_map.1 hc'
      have := h6 e' he'
      rw [h5] at this
      simpa [tup, leV, geV] using this

/-- **C25** (bulk) Shape of the pool. -/
theorem C25_bulk_shape {cfg : Cfg P Y V} (hnan : ∀ pre x y, cfg.cond pre x y ≠ none)
    (hinf : ∀ pre x y, cfg.cond pre x y ≠ some ⊤) (x0 : P) (y0 : Y) (a0 : V) {size : ℕ} (hsize : 1 ≤ size)
    (offered : List (Cand P Y V)) (hoff : ∀ c ∈ offered, c.2.2.2 ≠ none ∧ c.2.2.2 ≠ some ⊤) :
    let p := bulkNew cfg x0 y0 a0 size offered
    p.slots.length = size ∧ (p.slots.map Prod.snd).Pairwise (fun c d => c = some ⊥ → d = some ⊥) ∧
      p.occupied.length ≤ size ∧
      (∀ n, n ≤ size → p.result n = ((p.occupied.take n).map (·.1), (p.occupied.take n).map (·.2.1))) ∧
      ((∃ c ∈ offered, c.2.2.2 ≠ some ⊥) → p.occupied ≠ []) := by
  intro p
  have htop := C24_bulk_top hnan hinf x0 y0 a0 hsize offered hoff
  obtain ⟨es, rfl⟩ := exists_ents offered (fun c hc => (hoff c hc).1)
  obtain ⟨S, b, cache, h1, h2, h3⟩ := bulk_init (cond_val hnan) (no_top_val' hnan hinf) x0 y0 a0 hsize es
    (fun e he h => (hoff (tup e) (List.mem_map.2 ⟨e, he, rfl⟩)).2 (by simp [tup, h]))
  have hp : p = ofSlots (S ++ [(b, ⊥)]) cache := h1
  obtain ⟨g1, g2, g3, g4⟩ := shape_ofSlots hsize h2 (picks_prefix _ _ _ _ h3) b cache
  refine ⟨hp ▸ g1, hp ▸ g2, hp ▸ g3, hp ▸ g4, ?_⟩
  intro hex h0
  obtain ⟨c, _, _, hc, _⟩ := htop hex
  rw [show bulkNew cfg x0 y0 a0 size (es.map tup) = p from rfl, h0] at hc
  simp at hc

/-- **C22** (bulk) The conditioned values are non-increasing, when lies do not increase acquisition values and the
candidates come with their unconditioned values. -/
theorem C22_bulk_sorted {cfg : Cfg P Y V} (hnan : ∀ pre x y, cfg.cond pre x y ≠ none)
    (hinf : ∀ pre x y, cfg.cond pre x y ≠ some ⊤) (hshrink : Shrinks cfg.cond)
    (x0 : P) (y0 : Y) (a0 : V) {size : ℕ} (hsize : 1 ≤ size)
    (offered : List (Cand P Y V)) (hacq : ∀ c ∈ offered, c.2.2.2 = cfg.cond [] c.1 c.2.1) :
    ((bulkNew cfg x0 y0 a0 size offered).slots.map Prod.snd).Pairwise fun c d => geV c d = true := by
  have hoff : ∀ c ∈ offered, c.2.2.2 ≠ none ∧ c.2.2.2 ≠ some ⊤ := by
    intro c hc; rw [hacq c hc]; exact ⟨hnan _ _ _, hinf _ _ _⟩
  obtain ⟨es, rfl⟩ := exists_ents offered (fun c hc => (hoff c hc).1)
  obtain ⟨S, b, cache, h1, h2, h3⟩ := bulk_init (cond_val hnan) (no_top_val' hnan hinf) x0 y0 a0 hsize es
    (fun e he h => (hoff (tup e) (List.mem_map.2 ⟨e, he, rfl⟩)).2 (by simp [tup, h]))
  rw [h1]
  have hM := shrinks_mono hnan hshrink
  have hes : ∀ e ∈ es, e.a = val cfg [] e.x e.y := by
    intro e he
    have := hacq (tup e) (List.mem_map.2 ⟨e, he, rfl⟩)
    rw [cond_val hnan] at this
    exact Option.some.inj this
  exact sorted_of_desc (picks_desc _ (fun pre q e => hM pre q e.x e.y) _ _ _ (lvl_val _ _ _ hes h3)).1 _ _

/-! ## C26: greedy selection -/

/-- Greedy selection of at most `n` of the remaining candidates, given the points already chosen: each time one with the
largest value, until none has a value above `-inf`. -/
inductive Greedy (cond : List (P × Y) → P → Y → Option V) :
    List (P × Y) → List (Cand P Y V) → ℕ → List (Cand P Y V × Option V) → Prop
  | full (pre rem) : Greedy cond pre rem 0 []
  | exhausted (pre rem n) (h : ∀ c ∈ rem, cond pre c.1 c.2.1 = some ⊥) : Greedy cond pre rem n []
  | pick (pre rem rem' n c rest) (hne : cond pre c.1 c.2.1 ≠ some ⊥) (hrem : rem.Perm (c :: rem'))
      (hmax : ∀ c' ∈ rem, leV (cond pre c'.1 c'.2.1) (cond pre c.1 c.2.1) = true)
      (hrest : Greedy cond (pre ++ [(c.1, c.2.1)]) rem' n rest) :
      Greedy cond pre rem (n + 1) ((c, cond pre c.1 c.2.1) :: rest)

/-- Non-empty slots. -/
def nonEmpty (p : Pool P Y V) : List (Cand P Y V × Option V) := p.slots.filter fun t => decide (t.2 ≠ some ⊥)

theorem nonEmpty_ofSlots (S : List (Slot P Y V)) (b : Slot P Y V) (cache) :
    nonEmpty (ofSlots (S ++ [b]) cache) = (S.filter fun t => decide (t.2 ≠ ⊥)).map fun t => (tup t.1, some t.2) := by
  unfold nonEmpty
  rw [slots_ofSlots, List.filter_map]
  congr 1
  apply List.filter_congr
  intro t _
  simp

theorem filter_bot {D : List (Slot P Y V)} (h : ∀ t ∈ D, t.2 = ⊥) : D.filter (fun t => decide (t.2 ≠ ⊥)) = [] := by
  rw [List.filter_eq_nil_iff]
  intro t ht; simp [h t ht]

theorem greedy_of_picks {cfg : Cfg P Y V} (hnan : ∀ pre x y, cfg.cond pre x y ≠ none) (hM : Mono (val cfg)) :
    ∀ (D : List (Slot P Y V)) pre (c dead full : List (Ent P Y V)),
      Picks (fun pre e => val cfg pre e.x e.y) pre c D → full.Perm (c ++ dead) →
      (∀ e ∈ dead, val cfg pre e.x e.y = ⊥) →
      Greedy cfg.cond pre (full.map tup) D.length
        ((D.filter fun t => decide (t.2 ≠ ⊥)).map fun t => (tup t.1, some t.2)) := by
  intro D
  induction D with
  | nil => intro pre c dead full _ _ _; exact Greedy.full _ _
  | cons t D ih =>
    intro pre c dead full h hfull hdead
    have hcv : ∀ (e : Ent P Y V), cfg.cond pre (tup e).1 (tup e).2.1 = some (val cfg pre e.x e.y) := by
      intro e; rw [cond_val hnan]; rfl
    rcases h with ⟨g1, g2, g3⟩ | ⟨g1, g2, g3, c', g4, g5⟩
    · dsimp only at g2
      rw [filter_bot (by
        intro u hu
        rcases List.mem_cons.1 hu with rfl | hu
        · exact g1
        · exact g3 u hu)]
      apply Greedy.exhausted
      intro x hx
      obtain ⟨e, he, rfl⟩ := List.mem_map.1 hx
      rw [hcv]
      rcases List.mem_append.1 (hfull.mem_iff.1 he) with h | h
      · rw [g2 e h]
      · rw [hdead e h]
    · dsimp only at g2 g3
      rw [List.filter_cons, if_pos (by simpa using g1), List.map_cons]
      have hv : (some t.2 : Option V) = cfg.cond pre (tup t.1).1 (tup t.1).2.1 := by rw [hcv, ← g2]
      rw [hv, List.length_cons]
      have hp : full.Perm (t.1 :: (c' ++ dead)) := hfull.trans ((g4.append_right dead))
      refine Greedy.pick pre _ ((c' ++ dead).map tup) _ _ _ ?_ ?_ ?_ ?_
      · rw [← hv]; simpa using g1
      · simpa using hp.map tup
      · intro x hx
        obtain ⟨e, he, rfl⟩ := List.mem_map.1 hx
        rw [hcv, ← hv]
        rcases List.mem_append.1 (hfull.mem_iff.1 he) with h | h
        · simpa [leV, geV] using g3 e h
        · rw [hdead e h]; simp [leV, geV]
      · have hsplit : (c' ++ dead).Perm ((c'.filter fun e => decide (val cfg pre e.x e.y ≠ ⊥)) ++
            ((c'.filter fun e => !decide (val cfg pre e.x e.y ≠ ⊥)) ++ dead)) := by
          rw [← List.append_assoc]
          exact (List.filter_append_perm _ c').symm.append_right dead
        refine ih _ _ _ _ g5 hsplit ?_
        intro e he
        apply le_bot_iff.1
        refine (hM _ _ _ _).trans ?_
        rcases List.mem_append.1 he with h | h
        · have := (List.mem_filter.1 h).2
          simp at this
          rw [this]
        · rw [hdead e h]

/-- **C26** (bulk) `add_bulk` makes a greedy selection among all the candidates: at every step one with the largest
acquisition value conditioned on those already chosen.  (Dropping candidates of null value along the way loses
nothing.) -/
theorem C26_bulk_greedy {cfg : Cfg P Y V} (hnan : ∀ pre x y, cfg.cond pre x y ≠ none)
    (hinf : ∀ pre x y, cfg.cond pre x y ≠ some ⊤) (hshrink : Shrinks cfg.cond)
    (x0 : P) (y0 : Y) (a0 : V) {size : ℕ} (hsize : 1 ≤ size)
    (offered : List (Cand P Y V)) (hacq : ∀ c ∈ offered, c.2.2.2 = cfg.cond [] c.1 c.2.1) :
    Greedy cfg.cond [] offered size (nonEmpty (bulkNew cfg x0 y0 a0 size offered)) := by
  have hoff : ∀ c ∈ offered, c.2.2.2 ≠ none ∧ c.2.2.2 ≠ some ⊤ := by
    intro c hc; rw [hacq c hc]; exact ⟨hnan _ _ _, hinf _ _ _⟩
  obtain ⟨es, rfl⟩ := exists_ents offered (fun c hc => (hoff c hc).1)
  obtain ⟨S, b, cache, h1, h2, h3⟩ := bulk_init (cond_val hnan) (no_top_val' hnan hinf) x0 y0 a0 hsize es
    (fun e he h => (hoff (tup e) (List.mem_map.2 ⟨e, he, rfl⟩)).2 (by simp [tup, h]))
  have hes : ∀ e ∈ es, e.a = val cfg [] e.x e.y := by
    intro e he
    have := hacq (tup e) (List.mem_map.2 ⟨e, he, rfl⟩)
    rw [cond_val hnan] at this
    exact Option.some.inj this
  rw [h1, nonEmpty_ofSlots, ← h2]
  exact greedy_of_picks hnan (shrinks_mono hnan hshrink) S [] es [] es (lvl_val _ _ _ hes h3) (by simp) (by simp)

theorem greedy_of_ranking {cfg : Cfg P Y V} (hnan : ∀ pre x y, cfg.cond pre x y ≠ none) :
    ∀ (S : List (Slot P Y V)) pre (full : List (Ent P Y V)), Desc S → Ranking (val cfg) pre S → (occ S).Perm full →
      Greedy cfg.cond pre (full.map tup) S.length
        ((S.filter fun t => decide (t.2 ≠ ⊥)).map fun t => (tup t.1, some t.2)) := by
  intro S
  induction S with
  | nil => intro pre full _ _ _; exact Greedy.full _ _
  | cons t S ih =>
    intro pre full hd hr hp
    have hcv : ∀ (e : Ent P Y V), cfg.cond pre (tup e).1 (tup e).2.1 = some (val cfg pre e.x e.y) := by
      intro e; rw [cond_val hnan]; rfl
    have hdom := ranking_head_dom hd hr
    rcases hr with h | ⟨h1, h2, h3⟩
    · have hall : ∀ u ∈ t :: S, u.2 = ⊥ := by
        intro u hu
        rcases List.mem_cons.1 hu with rfl | hu
        · exact h
        · have := (List.pairwise_cons.1 hd).1 u hu
          rw [h] at this
          exact le_bot_iff.1 this
      rw [filter_bot hall]
      rw [occ_empty hall] at hp
      apply Greedy.exhausted
      intro c hc
      rw [← hp.nil_eq] at hc
      simp at hc
    · by_cases hne : t.2 = ⊥
      · have hall : ∀ u ∈ t :: S, u.2 = ⊥ := by
          intro u hu
          rcases List.mem_cons.1 hu with rfl | hu
          · exact hne
          · have := (List.pairwise_cons.1 hd).1 u hu
            rw [hne] at this
            exact le_bot_iff.1 this
        rw [filter_bot hall]
        rw [occ_empty hall] at hp
        apply Greedy.exhausted
        intro c hc
        rw [← hp.nil_eq] at hc
        simp at hc
      · rw [List.filter_cons, if_pos (by simpa using hne), List.map_cons]
        have hv : (some t.2 : Option V) = cfg.cond pre (tup t.1).1 (tup t.1).2.1 := by rw [hcv, ← h1]
        rw [hv, List.length_cons]
        rw [occ_cons, if_neg hne] at hp hdom
        refine Greedy.pick pre _ ((occ S).map tup) _ _ _ ?_ ?_ ?_ ?_
        · rw [← hv]; simpa using hne
        · simpa using hp.symm.map tup
        · intro x hx
          obtain ⟨e, he, rfl⟩ := List.mem_map.1 hx
          rw [hcv, ← hv]
          simpa [leV, geV] using hdom e (hp.mem_iff.2 he)
        · exact ih _ _ (List.pairwise_cons.1 hd).2 h3 (.refl _)

/-- **C26** (one by one, partial) If the candidates fit in the pool and no value is `-inf`, adding them one by one in
any order also makes a greedy selection.  Missing: more candidates than slots, for which the statement is false, see
`C26_single_not_greedy_counterexample`. -/
theorem C26_single_greedy_partial {cfg : Cfg P Y V} (hnan : ∀ pre x y, cfg.cond pre x y ≠ none)
    (hsort : SortsDesc cfg.argsortDesc) (hnull : ∀ pre x y, cfg.cond pre x y ≠ some ⊥) (hshrink : Shrinks cfg.cond)
    {x0 : P} {y0 : Y} {a0 : V} {size : ℕ} (hsize : 1 ≤ size)
    (offered : List (Cand P Y V)) (hfit : offered.length ≤ size)
    (hacq : ∀ c ∈ offered, c.2.2.2 = cfg.cond [] c.1 c.2.1)
    (p : Pool P Y V) (h : addMany cfg (Pool.init x0 y0 a0 size) offered = .ok p) :
    Greedy cfg.cond [] offered size (nonEmpty p) := by
  obtain ⟨es, S, b, cache, rfl, rfl, hinv, _, _, hperm, hrank⟩ := addMany_init hnan hsort hsize offered p h
  have hes : ∀ e ∈ es, e.a = val cfg [] e.x e.y := by
    intro e he
    have := hacq (tup e) (List.mem_map.2 ⟨e, he, rfl⟩)
    rw [cond_val hnan] at this
    exact Option.some.inj this
  have hnb : ∀ pre x y, val cfg pre x y ≠ ⊥ := by
    intro pre x y h0
    apply hnull pre x y
    rw [cond_val hnan]
    simp only
    rw [h0]
  have hR := hrank (shrinks_mono hnan hshrink) hes
  have hP := hperm hnb (fun e he => by rw [hes e he]; exact hnb _ _ _) (by simpa using hfit)
  rw [nonEmpty_ofSlots, ← hinv.len]
  exact greedy_of_ranking hnan S [] es hinv.desc hR hP

/-- Greedy selection is unique if different candidates never have the same value. -/
theorem greedy_unique {cond : List (P × Y) → P → Y → Option V} {pre : List (P × Y)} {rem rem2 : List (Cand P Y V)}
    {n : ℕ} {l l' : List (Cand P Y V × Option V)}
    (h : Greedy cond pre rem n l) :
    (∀ pre, ∀ c ∈ rem, ∀ c' ∈ rem, cond pre c.1 c.2.1 = cond pre c'.1 c'.2.1 → c = c') →
    rem.Perm rem2 → Greedy cond pre rem2 n l' → l = l' := by
  intro hd hp h'
  induction h generalizing rem2 l' with
  | full pre rem =>
    cases h' with
    | full => rfl
    | exhausted => rfl
  | exhausted pre rem n hall =>
    cases h' with
    | full => rfl
    | exhausted => rfl
    | pick pre rem rem' n c rest hne hrem hmax hrest =>
      exfalso
      exact hne (hall c (hp.mem_iff.2 (hrem.mem_iff.2 List.mem_cons_self)))
  | pick pre rem rem' n c rest hne hrem hmax hrest ih =>
    cases h' with
    | exhausted _ _ _ hall =>
      exfalso
      exact hne (hall c (hp.mem_iff.1 (hrem.mem_iff.2 List.mem_cons_self)))
    | pick _ _ rem2' _ c2 rest2 hne2 hrem2 hmax2 hrest2 =>
      have hc : c ∈ rem := hrem.mem_iff.2 List.mem_cons_self
      have hc2 : c2 ∈ rem := hp.mem_iff.2 (hrem2.mem_iff.2 List.mem_cons_self)
      have e1 := hmax c2 hc2
      have e2 := hmax2 c (hp.mem_iff.1 hc)
      have heq : cond pre c.1 c.2.1 = cond pre c2.1 c2.2.1 := by
        revert e1 e2
        cases cond pre c.1 c.2.1 <;> cases cond pre c2.1 c2.2.1 <;> simp [leV, geV]
        intro h1 h2
        exact le_antisymm h2 h1
      have := hd pre c hc c2 hc2 heq
      subst this
      congr 1
      refine ih ?_ ?_ hrest2
      · intro pre' d hd1 d' hd2
        exact hd pre' d (hrem.mem_iff.2 (List.mem_cons_of_mem _ hd1)) d' (hrem.mem_iff.2 (List.mem_cons_of_mem _ hd2))
      · exact (List.perm_cons c).1 (hrem.symm.trans (hp.trans hrem2))

/-- **C26** (partial) If the candidates fit in the pool, no value is infinite and different candidates never have the
same value, both methods produce the same pool content, for any two orders of the candidates. -/
theorem C26_single_eq_bulk_partial {cfg : Cfg P Y V} (hnan : ∀ pre x y, cfg.cond pre x y ≠ none)
    (hsort : SortsDesc cfg.argsortDesc) (hnull : ∀ pre x y, cfg.cond pre x y ≠ some ⊥)
    (hinf : ∀ pre x y, cfg.cond pre x y ≠ some ⊤) (hshrink : Shrinks cfg.cond)
    {x0 : P} {y0 : Y} {a0 : V} {size : ℕ} (hsize : 1 ≤ size)
    (offered offered' : List (Cand P Y V)) (hperm : offered.Perm offered') (hfit : offered.length ≤ size)
    (hacq : ∀ c ∈ offered, c.2.2.2 = cfg.cond [] c.1 c.2.1)
    (hdist : ∀ pre, ∀ c ∈ offered, ∀ c' ∈ offered, cfg.cond pre c.1 c.2.1 = cfg.cond pre c'.1 c'.2.1 → c = c')
    (p : Pool P Y V) (h : addMany cfg (Pool.init x0 y0 a0 size) offered = .ok p) :
    nonEmpty p = nonEmpty (bulkNew cfg x0 y0 a0 size offered') :=
  greedy_unique (C26_single_greedy_partial hnan hsort hnull hshrink hsize offered hfit hacq p h) hdist hperm
    (C26_bulk_greedy hnan hinf hshrink x0 y0 a0 hsize offered' (fun c hc => hacq c (hperm.mem_iff.2 hc)))

/-! ## C28: merging -/

theorem rankAll_spec {cfg : Cfg P Y V} (hnan : ∀ pre x y, cfg.cond pre x y ≠ none)
    (hsort : SortsDesc cfg.argsortDesc) {x0 : P} {y0 : Y} {a0 : V} {size : ℕ} (hsize : 1 ≤ size) :
    ∀ (shares : List (List (Cand P Y V))) (pools : List (Pool P Y V)),
      rankAll cfg x0 y0 a0 size shares = .ok pools →
      pools.length = shares.length ∧ ∃ Ss : List (List (Slot P Y V)), ∃ es : List (Ent P Y V),
        shares.flatten = es.map tup ∧ Ss.length = pools.length ∧ (∀ S ∈ Ss, S.length = size) ∧
        (pools.flatMap fun p => p.X.take p.len) = Ss.flatten.map (·.1.x) ∧
        (pools.flatMap fun p => p.y.take p.len) = Ss.flatten.map (·.1.y) ∧
        (pools.flatMap fun p => p.sigma.take p.len) = Ss.flatten.map (·.1.s) ∧
        (pools.flatMap fun p => p.acq.take p.len) = Ss.flatten.map (fun t => some t.1.a) ∧
        (pools.flatMap fun p => p.acqCond.take p.len) = Ss.flatten.map (fun t => some t.2) ∧
        (occ Ss.flatten).Subperm es ∧
        (∀ e ∈ es, e.a ≠ ⊥ → ∃ t ∈ Ss.flatten, t.2 = t.1.a ∧ e.a ≤ t.2) := by
  intro shares
  induction shares with
  | nil =>
    intro pools h
    simp only [rankAll, Except.ok.injEq] at h
    subst h
    exact ⟨rfl, [], [], by simp [occ]⟩
  | cons l ls ih =>
    intro pools h
    rw [rankAll] at h
    split at h
    · simp at h
    · rename_i p hp
      split at h
      · simp at h
      · rename_i ps hps
        simp only [Except.ok.injEq] at h
        subst h
        obtain ⟨hl, Ss, es, g1, g2, g3, g4, g5, g6, g7, g8, g9, g10⟩ := ih ps hps
        obtain ⟨es1, S, b, cache, rfl, rfl, hinv, hsub, ⟨t', ht', hall, hor⟩, _⟩ :=
          addMany_init hnan hsort hsize l p hp
        have hlen : (ofSlots (S ++ [(b, (⊥ : V))]) cache).len = S.length := by simp
        refine ⟨by simp [hl], S :: Ss, es1 ++ es, by simp [g1], by simp [g2], ?_, ?_, ?_, ?_, ?_, ?_, ?_, ?_⟩
        · intro S' hS'
          rcases List.mem_cons.1 hS' with rfl | hS'
          · exact hinv.len
          · exact g3 S' hS'
        · rw [List.flatMap_cons, g4, hlen]; simp [ofSlots]
        · rw [List.flatMap_cons, g5, hlen]; simp [ofSlots]
        · rw [List.flatMap_cons, g6, hlen]; simp [ofSlots]
        · rw [List.flatMap_cons, g7, hlen]; simp [ofSlots]
        · rw [List.flatMap_cons, g8, hlen]; simp [ofSlots]
        · rw [List.flatten_cons, occ_append]
          exact hsub.append g9
        · intro e he hne
          rcases List.mem_append.1 he with he | he
          · have hle := hall e he
            rcases hor with h0 | ⟨e', _, rfl⟩
            · rw [h0] at hle
              exact absurd (le_bot_iff.1 hle) hne
            · exact ⟨(e', e'.a), by simp [List.mem_of_mem_head? ht'], rfl, hle⟩
          · obtain ⟨t, ht, h1, h2⟩ := g10 e he hne
            exact ⟨t, by rw [List.flatten_cons]; exact List.mem_append_right _ ht, h1, h2⟩

/-- **C28** For every number of processes and every distribution of the sample: the merged pool has at most `size`
points, all of them sample points with their own values, and on top one with the largest acquisition value of the
whole sample. -/
theorem C28_merge {cfg : Cfg P Y V} (hnan : ∀ pre x y, cfg.cond pre x y ≠ none)
    (hinf : ∀ pre x y, cfg.cond pre x y ≠ some ⊤) (hsort : SortsDesc cfg.argsortDesc)
    {x0 : P} {y0 : Y} {a0 : V} {size : ℕ} (hsize : 1 ≤ size)
    (shares : List (List (Cand P Y V))) (hoff : ∀ c ∈ shares.flatten, c.2.2.2 ≠ none ∧ c.2.2.2 ≠ some ⊤)
    (hex : ∃ c ∈ shares.flatten, c.2.2.2 ≠ some ⊥) :
    ∃ p, rankAndMerge cfg x0 y0 a0 size shares = .ok p ∧ p.occupied.Subperm shares.flatten ∧
      p.occupied.length ≤ size ∧
      p.result size = (p.occupied.map (·.1), p.occupied.map (·.2.1)) ∧
      ∃ c ∈ shares.flatten, p.occupied.head? = some c ∧ ∀ c' ∈ shares.flatten, leV c'.2.2.2 c.2.2.2 = true := by
  have hall : ∀ ss : List (List (Cand P Y V)), (∀ c ∈ ss.flatten, c.2.2.2 ≠ none) →
      ∃ pools, rankAll cfg x0 y0 a0 size ss = .ok pools := by
    intro ss
    induction ss with
    | nil => intro _; exact ⟨[], rfl⟩
    | cons l ls ih =>
      intro hc
      obtain ⟨p, hp⟩ := C25_add_succeeds hnan hsort x0 y0 a0 hsize l (fun c h => hc c (by simp [h]))
      obtain ⟨ps, hps⟩ := ih (fun c h => hc c (by rw [List.flatten_cons]; exact List.mem_append_right _ h))
      exact ⟨p :: ps, by rw [rankAll, hp]; simp [hps]⟩
  obtain ⟨pools, hpools⟩ := hall shares (fun c hc => (hoff c hc).1)
  have htake : ∀ (q : Pool P Y V), q.occupied.length ≤ size → q.occupied.take size = q.occupied :=
    fun q h => List.take_of_length_le h
  refine ⟨mergePools cfg x0 y0 a0 size pools, by rw [rankAndMerge, hpools], ?_⟩
  obtain ⟨hlen, Ss, es, g1, g2, g3, g4, g5, g6, g7, g8, g9, g10⟩ := rankAll_spec hnan hsort hsize shares pools hpools
  by_cases hone : ∃ q, pools = [q]
  · obtain ⟨q, rfl⟩ := hone
    obtain ⟨l, rfl⟩ : ∃ l, shares = [l] := List.length_eq_one_iff.1 (by simpa using hlen.symm)
    have hq : addMany cfg (Pool.init x0 y0 a0 size) l = .ok q := by
      rw [rankAll] at hpools
      split at hpools
      · simp at hpools
      · simp [rankAll] at hpools
        subst hpools
        assumption
    simp only [mergePools, List.flatten_cons, List.flatten_nil, List.append_nil] at hex ⊢
    obtain ⟨_, _, h3, h4, _⟩ := C25_single_shape hnan hsort hsize l q hq
    obtain ⟨c, hc, _, h5, h6⟩ := C24_single_top hnan hsort hsize l q hq hex
    refine ⟨C23_single_content hnan hsort hsize l q hq, h3, ?_, c, hc, h5, h6⟩
    rw [h4 size (le_refl _), htake q h3]
  · -- several processes
    set fin := Ss.flatten.filter fun t => isFin (some t.2) with hfin
    have hm : mergePools cfg x0 y0 a0 size pools = bulkNew cfg x0 y0 a0 size ((fin.map Prod.fst).map tup) := by
      unfold mergePools
      split
      · exact absurd ⟨_, rfl⟩ hone
      · simp only
        rw [g4, g5, g6, g7, g8, List.map_map, maskL_map, maskL_map, maskL_map, maskL_map]
        have : maskL (Ss.flatten.map (isFin ∘ fun t => some t.2)) Ss.flatten = fin := maskL_filter _ _
        rw [this, bulkNew]
        simp [List.map_map, Function.comp_def, tup]
    have hfinocc : (fin.map Prod.fst).Sublist (occ Ss.flatten) := by
      rw [occ]
      apply List.Sublist.map
      rw [hfin]
      have : (Ss.flatten.filter fun t => isFin (some t.2)) =
          (Ss.flatten.filter fun t => decide (t.2 ≠ ⊥)).filter fun t => isFin (some t.2) := by
        rw [List.filter_filter]
        apply List.filter_congr
        intro t _
        by_cases h1 : t.2 = ⊥ <;> simp [isFin, h1]
      rw [this]
      exact List.filter_sublist
    have hsubm : ((fin.map Prod.fst).map tup).Subperm shares.flatten := by
      rw [g1]
      obtain ⟨l, hp, hs⟩ := hfinocc.subperm.trans g9
      exact ⟨l.map tup, hp.map _, hs.map _⟩
    have hoff' : ∀ c ∈ (fin.map Prod.fst).map tup, c.2.2.2 ≠ none ∧ c.2.2.2 ≠ some ⊤ :=
      fun c hc => hoff c (hsubm.subset hc)
    -- every sample point is dominated by a gathered point
    have hdom : ∀ c ∈ shares.flatten, c.2.2.2 ≠ some ⊥ → ∃ c' ∈ (fin.map Prod.fst).map tup,
        leV c.2.2.2 c'.2.2.2 = true := by
      intro c hc hne
      rw [g1] at hc
      obtain ⟨e, he, rfl⟩ := List.mem_map.1 hc
      have hea : e.a ≠ ⊥ := fun h => hne (by simp [tup, h])
      obtain ⟨t, ht, h1, h2⟩ := g10 e he hea
      have htb : t.2 ≠ ⊥ := by
        intro h0; rw [h0] at h2; exact hea (le_bot_iff.1 h2)
      have htt : t.2 ≠ ⊤ := by
        rw [h1]
        intro h0
        have hmem : t.1 ∈ es := g9.subset (mem_occ.2 ⟨t.2, ht, htb⟩)
        have := (hoff (tup t.1) (by rw [g1]; exact List.mem_map.2 ⟨t.1, hmem, rfl⟩)).2
        exact this (by simp [tup, h0])
      refine ⟨tup t.1, ?_, ?_⟩
      · refine List.mem_map.2 ⟨t.1, List.mem_map.2 ⟨t, ?_, rfl⟩, rfl⟩
        rw [hfin]
        exact List.mem_filter.2 ⟨ht, by simp [isFin, htb, htt]⟩
      · rw [h1] at h2
        simpa [tup, leV, geV] using h2
    have hex' : ∃ c ∈ (fin.map Prod.fst).map tup, c.2.2.2 ≠ some ⊥ := by
      obtain ⟨c, hc, hne⟩ := hex
      obtain ⟨c', hc', hle⟩ := hdom c hc hne
      refine ⟨c', hc', ?_⟩
      intro h0
      rw [h0] at hle
      cases hca : c.2.2.2 with
      | none => rw [hca] at hle; simp [leV, geV] at hle
      | some v =>
        rw [hca] at hle hne
        simp [leV, geV] at hle
        exact hne (by rw [hle])
    rw [hm]
    obtain ⟨_, _, h3, h4, _⟩ := C25_bulk_shape hnan hinf x0 y0 a0 hsize _ hoff'
    obtain ⟨c, hc, _, h5, h6⟩ := C24_bulk_top hnan hinf x0 y0 a0 hsize _ hoff' hex'
    refine ⟨(C23_bulk_content hnan hinf x0 y0 a0 hsize _ hoff').trans hsubm, h3, ?_, c, hsubm.subset hc, h5, ?_⟩
    · rw [h4 size (le_refl _), htake _ h3]
    · intro c' hc'
      by_cases hb : c'.2.2.2 = some ⊥
      · rw [hb]
        cases hca : c.2.2.2 with
        | none => exact absurd hca (hoff c (hsubm.subset hc)).1
        | some v => simp [leV, geV]
      · obtain ⟨c2, hc2, hle⟩ := hdom c' hc' hb
        have hle2 := h6 c2 hc2
        revert hle hle2
        cases c'.2.2.2 <;> cases c2.2.2.2 <;> cases c.2.2.2 <;> simp [leV, geV]
        intro a b
        exact a.trans b

/-- Points with predicted values are a Kriging-believer ranking of themselves: given the points before it, each has a value above `-inf`, and none
after it has a larger one. -/
def Believed (cond : List (P × Y) → P → Y → Option V) (l : List (P × Y)) : Prop :=
  ∀ j t, l[j]? = some t → cond (l.take j) t.1 t.2 ≠ some ⊥ ∧
    ∀ j' u, j ≤ j' → l[j']? = some u → leV (cond (l.take j) u.1 u.2) (cond (l.take j) t.1 t.2) = true

theorem believed_of_greedy {cond : List (P × Y) → P → Y → Option V} {pre : List (P × Y)} {rem : List (Cand P Y V)} {n : ℕ}
    {l : List (Cand P Y V × Option V)} (h : Greedy cond pre rem n l) :
    (∀ t ∈ l, t.1 ∈ rem) ∧ ∀ j t, l[j]? = some t →
      cond (pre ++ (l.take j).map fun u => (u.1.1, u.1.2.1)) t.1.1 t.1.2.1 ≠ some ⊥ ∧
      ∀ j' u, j ≤ j' → l[j']? = some u →
        leV (cond (pre ++ (l.take j).map fun u => (u.1.1, u.1.2.1)) u.1.1 u.1.2.1) (cond (pre ++ (l.take j).map fun u => (u.1.1, u.1.2.1)) t.1.1 t.1.2.1) = true := by
  induction h with
  | full => exact ⟨by simp, by simp⟩
  | exhausted => exact ⟨by simp, by simp⟩
  | pick pre rem rem' n c rest hne hrem hmax hrest ih =>
    obtain ⟨ih1, ih2⟩ := ih
    have hmem : ∀ t ∈ (c, cond pre c.1 c.2.1) :: rest, t.1 ∈ rem := by
      intro t ht
      rcases List.mem_cons.1 ht with rfl | ht
      · exact hrem.symm.subset (by simp)
      · exact hrem.symm.subset (List.mem_cons_of_mem _ (ih1 t ht))
    refine ⟨hmem, fun j t ht => ?_⟩
    cases j with
    | zero =>
      simp only [List.getElem?_cons_zero, Option.some.injEq] at ht
      subst ht
      simp only [List.take_zero, List.map_nil, List.append_nil]
      exact ⟨hne, fun j' u _ hu => hmax _ (hmem u (List.mem_of_getElem? hu))⟩
    | succ j =>
      simp only [List.getElem?_cons_succ] at ht
      have h := ih2 j t ht
      rw [List.append_assoc] at h
      simp only [List.take_succ_cons, List.map_cons]
      refine ⟨h.1, fun j' u hj hu => ?_⟩
      cases j' with
      | zero => omega
      | succ j' => exact h.2 j' u (by omega) (by simpa using hu)

theorem believed_map {cond : List (P × Y) → P → Y → Option V} {l : List (Cand P Y V × Option V)}
    (h : ∀ j t, l[j]? = some t → cond ((l.take j).map fun u => (u.1.1, u.1.2.1)) t.1.1 t.1.2.1 ≠ some ⊥ ∧
      ∀ j' u, j ≤ j' → l[j']? = some u →
        leV (cond ((l.take j).map fun u => (u.1.1, u.1.2.1)) u.1.1 u.1.2.1) (cond ((l.take j).map fun u => (u.1.1, u.1.2.1)) t.1.1 t.1.2.1) = true) :
    Believed cond ((l.map Prod.fst).map fun c => (c.1, c.2.1)) := by
  intro j t ht
  rw [List.map_map, List.getElem?_map, Option.map_eq_some_iff] at ht
  obtain ⟨t, ht, rfl⟩ := ht
  obtain ⟨h1, h2⟩ := h j t ht
  rw [List.map_map, ← List.map_take]
  refine ⟨h1, fun j' u hj hu => ?_⟩
  rw [List.getElem?_map, Option.map_eq_some_iff] at hu
  obtain ⟨u, hu, rfl⟩ := hu
  exact h2 j' u hj hu

/-- What is left after the ranking of each process and the merging is a Kriging-believer ranking of itself, if lies never increase the acquisition function. -/
theorem merge_believed {cfg : Cfg P Y V} (hnan : ∀ pre x y, cfg.cond pre x y ≠ none)
    (hinf : ∀ pre x y, cfg.cond pre x y ≠ some ⊤) (hsort : SortsDesc cfg.argsortDesc) (hshrink : Shrinks cfg.cond)
    {x0 : P} {y0 : Y} {a0 : V} {size : ℕ} (hsize : 1 ≤ size)
    (shares : List (List (Cand P Y V))) (hacq : ∀ c ∈ shares.flatten, c.2.2.2 = cfg.cond [] c.1 c.2.1) (p : Pool P Y V)
    (hp : rankAndMerge cfg x0 y0 a0 size shares = .ok p) : Believed cfg.cond (p.occupied.map fun c => (c.1, c.2.1)) := by
  unfold rankAndMerge at hp
  cases hpools : rankAll cfg x0 y0 a0 size shares with
  | error e => rw [hpools] at hp; cases hp
  | ok pools =>
    rw [hpools] at hp
    simp only [Except.ok.injEq] at hp
    subst hp
    obtain ⟨hlen, Ss, es, g1, g2, g3, g4, g5, g6, g7, g8, g9, g10⟩ := rankAll_spec hnan hsort hsize shares pools hpools
    by_cases hone : ∃ q, pools = [q]
    · obtain ⟨q, rfl⟩ := hone
      obtain ⟨l, rfl⟩ : ∃ l, shares = [l] := List.length_eq_one_iff.1 (by simpa using hlen.symm)
      have hq : addMany cfg (Pool.init x0 y0 a0 size) l = .ok q := by
        rw [rankAll] at hpools
        split at hpools
        · simp at hpools
        · simp [rankAll] at hpools
          subst hpools
          assumption
      simp only [mergePools, List.flatten_cons, List.flatten_nil, List.append_nil] at hacq ⊢
      have hk := C74_single_is_ranking hnan hsort hshrink hsize l hacq q hq
      refine believed_map fun j t ht => ?_
      obtain ⟨h1, h2⟩ := hk j t ht
      have hb : t.2 ≠ some ⊥ := by simpa using (List.mem_filter.1 (List.mem_of_getElem? ht)).2
      rw [← h1]
      exact ⟨hb, fun j' u hj hu => h2 j' u hj hu⟩
    · set fin := Ss.flatten.filter fun t => isFin (some t.2) with hfin
      have hm : mergePools cfg x0 y0 a0 size pools = bulkNew cfg x0 y0 a0 size ((fin.map Prod.fst).map tup) := by
        unfold mergePools
        split
        · exact absurd ⟨_, rfl⟩ hone
        · simp only
          rw [g4, g5, g6, g7, g8, List.map_map, maskL_map, maskL_map, maskL_map, maskL_map]
          have : maskL (Ss.flatten.map (isFin ∘ fun t => some t.2)) Ss.flatten = fin := maskL_filter _ _
          rw [this, bulkNew]
          simp [List.map_map, Function.comp_def, tup]
      have hmem : ∀ c ∈ (fin.map Prod.fst).map tup, c ∈ shares.flatten := by
        intro c hc
        obtain ⟨e, he, rfl⟩ := List.mem_map.1 hc
        obtain ⟨t, ht, rfl⟩ := List.mem_map.1 he
        obtain ⟨ht1, ht2⟩ := List.mem_filter.1 ht
        rw [g1]
        refine List.mem_map.2 ⟨t.1, g9.subset (mem_occ.2 ⟨t.2, ht1, ?_⟩), rfl⟩
        rintro h0
        simp [isFin, h0] at ht2
      rw [hm]
      have hg := C26_bulk_greedy hnan hinf hshrink x0 y0 a0 hsize ((fin.map Prod.fst).map tup) fun c hc => hacq c (hmem c hc)
      refine believed_map fun j t ht => ?_
      exact (believed_of_greedy hg).2 j t ht

/-- Splitting a sample among processes with `mpi.step_split` loses nothing and repeats nothing. -/
theorem step_split_perm {α : Type*} (p : ℕ) (hp : 0 < p) (xs : List α) :
    (((List.range p).map fun r => GPry.Mpi.stepSplit p r xs).flatten).Perm xs := by
  unfold GPry.Mpi.stepSplit
  split
  · have : p = 1 := by omega
    subst this
    simp
  · have h : ((List.range p).map fun r => GPry.Mpi.stride p r xs).flatten =
        (((List.range p).flatMap fun r => (List.range (GPry.Mpi.strideLen xs.length r p)).map fun i => r + i * p).filterMap
          fun j => xs[j]?) := by
      rw [List.filterMap_flatMap, List.flatMap]
      congr 1
      apply List.map_congr_left
      intro r _
      rw [List.filterMap_map]
      rfl
    rw [h]
    apply filterMap_perm_range
    apply (List.perm_ext_iff_of_nodup ?_ List.nodup_range).2
    · intro j
      simp only [List.mem_flatMap, List.mem_range, List.mem_map]
      constructor
      · rintro ⟨r, hr, i, hi, rfl⟩
        exact (GPry.Mpi.lt_strideLen_iff _ _ _ _ hp).1 hi
      · intro hj
        refine ⟨j % p, Nat.mod_lt _ hp, j / p, ?_, ?_⟩
        · rw [GPry.Mpi.lt_strideLen_iff _ _ _ _ hp]
          have := Nat.mod_add_div j p
          rw [Nat.mul_comm] at this
          omega
        · have := Nat.mod_add_div j p
          rw [Nat.mul_comm] at this
          omega
    · rw [List.nodup_flatMap]
      refine ⟨?_, ?_⟩
      · intro r hr
        apply List.Nodup.map _ List.nodup_range
        intro a b hab
        have : a * p = b * p := by simpa using hab
        exact Nat.eq_of_mul_eq_mul_right hp this
      · refine List.Pairwise.imp_of_mem ?_ (List.nodup_range (n := p))
        intro r r' hr hr' hne
        rw [Function.onFun, List.disjoint_left]
        intro j h1 h2
        obtain ⟨i, _, rfl⟩ := List.mem_map.1 h1
        obtain ⟨i', _, h3⟩ := List.mem_map.1 h2
        apply hne
        have e1 := congrArg (· % p) h3
        simp only [Nat.add_mul_mod_self_right] at e1
        rw [Nat.mod_eq_of_lt (List.mem_range.1 hr), Nat.mod_eq_of_lt (List.mem_range.1 hr')] at e1
        exact e1.symm

end GPry.Ranked
