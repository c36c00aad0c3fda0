import Verif.PoolBulk

/-!
# Properties of `RankedPool` and of the merging of pools (C22-C28, C74)

The acquisition function conditioned on lies is an arbitrary function; the only general assumption is that it does not
return NaN (`hnan`), and that `numpy.argsort` sorts (`hsort`).  `Shrinks` (a lie never increases an acquisition value)
and the absence of infinities are assumed only where stated.
-/

set_option linter.all false

namespace GPry.Ranked

open GPry.Gpr (maskL)

variable {P Y V : Type*} [LinearOrder V] [BoundedOrder V]

/-! ## Specification -/

/-- The content of the slots of the pool (without the buffer), each with its conditioned acquisition value. -/
def Pool.slots (p : Pool P Y V) : List (Cand P Y V × Option V) :=
  ((p.X.zip (p.y.zip (p.sigma.zip p.acq))).zip p.acqCond).take p.len

/-- The content of the non-empty slots. -/
def Pool.occupied (p : Pool P Y V) : List (Cand P Y V) :=
  (p.slots.filter fun t => decide (t.2 ≠ some ⊥)).map Prod.fst

/-- Conditioning on one more lie does not increase the acquisition function. -/
def Shrinks (cond : List (P × Y) → P → Y → Option V) : Prop :=
  ∀ pre q x y, leV (cond (pre ++ [q]) x y) (cond pre x y) = true

/-! ## Helpers -/

/-- Values, when there are no NaN's. -/
def val (cfg : Cfg P Y V) (pre : List (P × Y)) (x : P) (y : Y) : V := (cfg.cond pre x y).getD ⊥

theorem cond_val {cfg : Cfg P Y V} (hnan : ∀ pre x y, cfg.cond pre x y ≠ none) :
    cfg.cond = fun pre x y => some (val cfg pre x y) := by
  funext pre x y
  unfold val
  cases h : cfg.cond pre x y with
  | none => exact absurd h (hnan _ _ _)
  | some v => rfl

theorem shrinks_mono {cfg : Cfg P Y V} (hnan : ∀ pre x y, cfg.cond pre x y ≠ none) (h : Shrinks cfg.cond) :
    Mono (val cfg) := by
  intro pre q x y
  have := h pre q x y
  rw [cond_val hnan] at this
  simpa [leV, geV] using this

def tup (e : Ent P Y V) : Cand P Y V := (e.x, e.y, e.s, some e.a)

theorem tup_inj : Function.Injective (tup : Ent P Y V → Cand P Y V) := by
  rintro ⟨x, y, s, a⟩ ⟨x', y', s', a'⟩ h
  simp [tup] at h
  simp [h]

theorem slots_ofSlots (S : List (Slot P Y V)) (b : Slot P Y V) (cache) :
    (ofSlots (S ++ [b]) cache).slots = S.map fun t => (tup t.1, some t.2) := by
  unfold Pool.slots
  rw [len_ofSlots]
  simp only [ofSlots, List.zip_map']
  rw [← List.map_take]
  simp [tup]

theorem occupied_ofSlots (S : List (Slot P Y V)) (b : Slot P Y V) (cache) :
    (ofSlots (S ++ [b]) cache).occupied = (occ S).map tup := by
  unfold Pool.occupied
  rw [slots_ofSlots, List.filter_map, List.map_map, occ, List.map_map]
  congr 1
  apply List.filter_congr
  intro t _
  simp

theorem init_ofSlots (x0 : P) (y0 : Y) (a0 : V) (size : ℕ) :
    Pool.init x0 y0 a0 size = ofSlots (List.replicate size (⟨x0, y0, y0, a0⟩, (⊥ : V)) ++ [(⟨x0, y0, y0, a0⟩, ⊥)])
      (List.replicate (size + 1) none) := by
  simp [Pool.init, ofSlots, List.replicate_succ']

theorem pinv_init (x0 : P) (y0 : Y) (a0 : V) (size : ℕ) :
    PInv size (List.replicate size (⟨x0, y0, y0, a0⟩, (⊥ : V))) ⟨x0, y0, y0, a0⟩ (List.replicate (size + 1) none) := by
  refine ⟨by simp, ?_, by simp, ?_⟩
  · apply List.pairwise_replicate.2
    right; exact le_refl _
  · intro j hj t ht htne
    exfalso
    apply htne
    have := List.mem_of_getElem? ht
    rcases List.mem_append.1 this with h | h
    · rw [List.eq_of_mem_replicate h]
    · simp at h; rw [h]

theorem occ_replicate (e : Ent P Y V) (n : ℕ) : occ (List.replicate n (e, (⊥ : V))) = [] :=
  occ_empty (fun t ht => by rw [List.eq_of_mem_replicate ht])

theorem addMany_spec {cfg : Cfg P Y V} {f : List (P × Y) → P → Y → V}
    (hcond : cfg.cond = fun pre x y => some (f pre x y)) (hsort : SortsDesc cfg.argsortDesc) {size : ℕ}
    (hsize : 1 ≤ size) : ∀ (l : List (Ent P Y V)) (S : List (Slot P Y V)) (b : Ent P Y V) (cache),
      PInv size S b cache →
    ∃ S' b' cache', addMany cfg (ofSlots (S ++ [(b, ⊥)]) cache) (l.map tup) =
        .ok (ofSlots (S' ++ [(b', ⊥)]) cache') ∧ PInv size S' b' cache' ∧
      (occ S').Subperm (l ++ occ S) ∧
      (∃ t t', S.head? = some t ∧ S'.head? = some t' ∧ t.2 ≤ t'.2 ∧ (∀ e ∈ l, e.a ≤ t'.2) ∧
        (t' = t ∨ ∃ e ∈ l, t' = (e, e.a))) ∧
      ((∀ pre x y, f pre x y ≠ ⊥) → (∀ e ∈ l, e.a ≠ ⊥) → l.length + (occ S).length ≤ size →
        (occ S').Perm (l ++ occ S)) ∧
      (Mono f → (∀ e ∈ l, e.a = f [] e.x e.y) → Ranking f [] S → Ranking f [] S') := by
  intro l
  induction l with
  | nil =>
    intro S b cache hinv
    have hlen := hinv.len
    obtain ⟨t, S0, rfl⟩ : ∃ t S0, S = t :: S0 := by
      cases S with
      | nil => simp at hlen; omega
      | cons t S0 => exact ⟨t, S0, rfl⟩
    exact ⟨_, b, cache, rfl, hinv, List.Subperm.refl _, ⟨t, t, rfl, rfl, le_refl _, by simp, Or.inl rfl⟩,
      fun _ _ _ => .refl _, fun _ _ h => h⟩
  | cons e l ih =>
    intro S b cache hinv
    obtain ⟨S1, b1, cache1, hrun, hinv1, hsub1, ⟨t, t1, ht, ht1, htop⟩, hperm1, hrank1⟩ :=
      addOne_spec hcond hsort hsize S b cache hinv e
    obtain ⟨S2, b2, cache2, hrun2, hinv2, hsub2, ⟨t1', t2, ht1', ht2, hle, hall, hor⟩, hperm2, hrank2⟩ :=
      ih S1 b1 cache1 hinv1
    rw [ht1] at ht1'
    cases ht1'
    refine ⟨S2, b2, cache2, ?_, hinv2, ?_, ⟨t, t2, ht, ht2, ?_, ?_, ?_⟩, ?_, ?_⟩
    · simp only [List.map_cons, tup, addMany]
      rw [hrun]
      exact hrun2
    · refine hsub2.trans ?_
      refine ((List.subperm_append_left l).2 hsub1).trans ?_
      exact (List.perm_middle).subperm
    · rcases htop with ⟨_, rfl⟩ | ⟨h, rfl⟩
      · exact hle
      · exact h.le.trans hle
    · intro e' he'
      rcases List.mem_cons.1 he' with rfl | he'
      · rcases htop with ⟨h, rfl⟩ | ⟨h, rfl⟩
        · exact h.trans hle
        · exact hle
      · exact hall e' he'
    · rcases hor with rfl | ⟨e', he', h⟩
      · rcases htop with ⟨_, h⟩ | ⟨_, h⟩
        · exact Or.inl h
        · exact Or.inr ⟨e, List.mem_cons_self, h⟩
      · exact Or.inr ⟨e', List.mem_cons_of_mem _ he', h⟩
    · intro hnb hne hl
      simp only [List.length_cons] at hl
      have h1 := hperm1 hnb (hne e List.mem_cons_self) (by omega)
      have h2 := hperm2 hnb (fun e' he' => hne e' (List.mem_cons_of_mem _ he'))
        (by rw [h1.length_eq]; simp; omega)
      exact h2.trans ((List.Perm.append_left l h1).trans List.perm_middle)
    · intro hM ha hR
      exact hrank2 hM (fun e' he' => ha e' (List.mem_cons_of_mem _ he')) (hrank1 hM (ha e List.mem_cons_self) hR)

/-- Offered candidates without NaN. -/
theorem exists_ents (l : List (Cand P Y V)) (h : ∀ c ∈ l, c.2.2.2 ≠ none) : ∃ es : List (Ent P Y V), l = es.map tup := by
  induction l with
  | nil => exact ⟨[], rfl⟩
  | cons c l ih =>
    obtain ⟨es, rfl⟩ := ih (fun c hc => h c (List.mem_cons_of_mem _ hc))
    obtain ⟨x, y, s, a⟩ := c
    cases a with
    | none => exact absurd rfl (h _ List.mem_cons_self)
    | some a => exact ⟨⟨x, y, s, a⟩ :: es, rfl⟩

/-- A NaN raises. -/
theorem addMany_no_nan (cfg : Cfg P Y V) : ∀ (l : List (Cand P Y V)) (p p' : Pool P Y V), addMany cfg p l = .ok p' →
    ∀ c ∈ l, c.2.2.2 ≠ none := by
  intro l
  induction l with
  | nil => intro p p' _ c hc; simp at hc
  | cons c l ih =>
    intro p p' h
    obtain ⟨x, y, s, a⟩ := c
    rw [addMany] at h
    cases a with
    | none =>
      have : addOne cfg p x y s none = .error .valueError := by
        rw [addOne, if_neg]
        cases h : p.minAcq <;> simp [leV, geV]
      rw [this] at h
      simp at h
    | some a =>
      split at h
      · simp at h
      · intro c hc
        rcases List.mem_cons.1 hc with rfl | hc
        · simp
        · exact ih _ _ h c hc

/-- Everything about a run of `add` with a one-by-one method, on a new pool. -/
theorem addMany_init {cfg : Cfg P Y V} (hnan : ∀ pre x y, cfg.cond pre x y ≠ none)
    (hsort : SortsDesc cfg.argsortDesc) {x0 : P} {y0 : Y} {a0 : V} {size : ℕ} (hsize : 1 ≤ size)
    (offered : List (Cand P Y V)) (p : Pool P Y V) (h : addMany cfg (Pool.init x0 y0 a0 size) offered = .ok p) :
    ∃ (es : List (Ent P Y V)) (S : List (Slot P Y V)) (b : Ent P Y V) (cache : _), offered = es.map tup ∧
      p = ofSlots (S ++ [(b, ⊥)]) cache ∧ PInv size S b cache ∧ (occ S).Subperm es ∧
      (∃ t', S.head? = some t' ∧ (∀ e ∈ es, e.a ≤ t'.2) ∧ (t'.2 = ⊥ ∨ ∃ e ∈ es, t' = (e, e.a))) ∧
      ((∀ pre x y, val cfg pre x y ≠ ⊥) → (∀ e ∈ es, e.a ≠ ⊥) → es.length ≤ size → (occ S).Perm es) ∧
      (Mono (val cfg) → (∀ e ∈ es, e.a = val cfg [] e.x e.y) → Ranking (val cfg) [] S) := by
  obtain ⟨es, rfl⟩ := exists_ents offered (addMany_no_nan cfg _ _ _ h)
  obtain ⟨S, b, cache, hrun, hinv, hsub, ⟨t, t', ht, ht', hle, hall, hor⟩, hperm, hrank⟩ :=
    addMany_spec (cond_val hnan) hsort hsize es _ _ _ (pinv_init x0 y0 a0 size)
  rw [← init_ofSlots, h] at hrun
  rw [occ_replicate, List.append_nil] at hsub
  refine ⟨es, S, b, cache, rfl, Except.ok.inj hrun, hinv, hsub, ⟨t', ht', hall, ?_⟩, ?_, ?_⟩
  · rcases hor with rfl | h
    · left
      have : t' ∈ List.replicate size ((⟨x0, y0, y0, a0⟩, ⊥) : Slot P Y V) := List.mem_of_mem_head? ht
      rw [List.eq_of_mem_replicate this]
    · exact Or.inr h
  · intro h1 h2 h3
    have := hperm h1 h2 (by rw [occ_replicate]; simpa using h3)
    rwa [occ_replicate, List.append_nil] at this
  · intro h1 h2
    apply hrank h1 h2
    cases size with
    | zero => trivial
    | succ n => exact Or.inl rfl

/-! ## C25, C27: `add` does not fail, insertion terminates -/

/-- **C27** The loop finding the position of a new point ends within `len + 2` iterations, for every pool, every
conditioned acquisition function (including one that returns NaN's) and every candidate: the model's "out of
iterations" is never reached.  (`sort` and `add_bulk` are structurally recursive: at most one level per slot.) -/
theorem C27_add_one_terminates (cfg : Cfg P Y V) (p : Pool P Y V) (x : P) (y s : Y) (a : Option V) :
    addOne cfg p x y s a ≠ .error .fuel := by
  have hsort : ∀ (n : ℕ) (p : Pool P Y V), sortFrom cfg n p ≠ .error .fuel := by
    intro n
    induction n with
    | zero => intro p; simp [sortFrom]
    | succ n ih =>
      intro p
      intro h
      rw [sortFrom] at h
      dsimp only at h
      repeat' split at h
      all_goals first
        | exact ih _ h
        | simp at h
  unfold addOne
  split
  · simp
  · split
    · simp
    · split
      · rename_i e he
        intro h
        cases h
        exact search_terminates cfg p x y _ _ _ 0 (Or.inl rfl) (Nat.zero_le _) (by omega) he
      · split
        · simp
        · dsimp only
          split
          · split
            · rename_i e he
              intro h
              cases h
              exact hsort _ _ he
            · simp
          · simp

/-- **C25** Without NaN's, `add` one by one never raises (no failed assertion, no missing cached model). -/
theorem C25_add_succeeds {cfg : Cfg P Y V} (hnan : ∀ pre x y, cfg.cond pre x y ≠ none)
    (hsort : SortsDesc cfg.argsortDesc) (x0 : P) (y0 : Y) (a0 : V) {size : ℕ} (hsize : 1 ≤ size)
    (offered : List (Cand P Y V)) (hoff : ∀ c ∈ offered, c.2.2.2 ≠ none) :
    ∃ p, addMany cfg (Pool.init x0 y0 a0 size) offered = .ok p := by
  obtain ⟨es, rfl⟩ := exists_ents offered hoff
  obtain ⟨S, b, cache, hrun, _⟩ := addMany_spec (cond_val hnan) hsort hsize es _ _ _ (pinv_init x0 y0 a0 size)
  rw [← init_ofSlots] at hrun
  exact ⟨_, hrun⟩

/-! ## C22: sorted -/

theorem sorted_of_desc {S : List (Slot P Y V)} (h : Desc S) (b : Slot P Y V) (cache) :
    ((ofSlots (S ++ [b]) cache).slots.map Prod.snd).Pairwise fun c d => geV c d = true := by
  rw [slots_ofSlots, List.map_map, List.pairwise_map]
  refine List.Pairwise.imp ?_ h
  intro a b h
  simpa [geV] using h

/-- **C22** (one by one) After adding any candidates, in any order, the conditioned acquisition values of the slots are
non-increasing. -/
theorem C22_single_sorted {cfg : Cfg P Y V} (hnan : ∀ pre x y, cfg.cond pre x y ≠ none)
    (hsort : SortsDesc cfg.argsortDesc) {x0 : P} {y0 : Y} {a0 : V} {size : ℕ} (hsize : 1 ≤ size)
    (offered : List (Cand P Y V)) (p : Pool P Y V) (h : addMany cfg (Pool.init x0 y0 a0 size) offered = .ok p) :
    (p.slots.map Prod.snd).Pairwise fun c d => geV c d = true := by
  obtain ⟨es, S, b, cache, _, rfl, hinv, _⟩ := addMany_init hnan hsort hsize offered p h
  exact sorted_of_desc hinv.desc _ _

/-! ## C23: content -/

/-- **C23** (one by one) The non-empty slots hold offered candidates, each with the mean, deviation and acquisition
value it was offered with, and none more often than it was offered. -/
theorem C23_single_content {cfg : Cfg P Y V} (hnan : ∀ pre x y, cfg.cond pre x y ≠ none)
    (hsort : SortsDesc cfg.argsortDesc) {x0 : P} {y0 : Y} {a0 : V} {size : ℕ} (hsize : 1 ≤ size)
    (offered : List (Cand P Y V)) (p : Pool P Y V) (h : addMany cfg (Pool.init x0 y0 a0 size) offered = .ok p) :
    p.occupied.Subperm offered := by
  obtain ⟨es, S, b, cache, rfl, rfl, hinv, hsub, _⟩ := addMany_init hnan hsort hsize offered p h
  rw [occupied_ofSlots]
  obtain ⟨l, hp, hs⟩ := hsub
  exact ⟨l.map tup, hp.map _, hs.map _⟩

/-! ## C24: top -/

/-- **C24** (one by one) If a candidate with acquisition above `-inf` was offered, the first slot holds an offered
candidate with the largest acquisition value of all, which is also its conditioned value. -/
theorem C24_single_top {cfg : Cfg P Y V} (hnan : ∀ pre x y, cfg.cond pre x y ≠ none)
    (hsort : SortsDesc cfg.argsortDesc) {x0 : P} {y0 : Y} {a0 : V} {size : ℕ} (hsize : 1 ≤ size)
    (offered : List (Cand P Y V)) (p : Pool P Y V) (h : addMany cfg (Pool.init x0 y0 a0 size) offered = .ok p)
    (hex : ∃ c ∈ offered, c.2.2.2 ≠ some ⊥) :
    ∃ c ∈ offered, p.slots.head? = some (c, c.2.2.2) ∧ p.occupied.head? = some c ∧
      ∀ c' ∈ offered, leV c'.2.2.2 c.2.2.2 = true := by
  obtain ⟨es, S, b, cache, rfl, rfl, hinv, hsub, ⟨t', ht', hall, hor⟩, _⟩ := addMany_init hnan hsort hsize offered p h
  obtain ⟨c, hc, hcb⟩ := hex
  obtain ⟨e0, he0, rfl⟩ := List.mem_map.1 hc
  have htne : t'.2 ≠ ⊥ := by
    intro h0
    have := hall e0 he0
    rw [h0] at this
    apply hcb
    simp only [tup]
    rw [le_bot_iff.1 this]
  rcases hor with h0 | ⟨e, he, rfl⟩
  · exact absurd h0 htne
  · refine ⟨tup e, List.mem_map.2 ⟨e, he, rfl⟩, ?_, ?_, ?_⟩
    · rw [slots_ofSlots, List.head?_map, ht']; rfl
    · rw [occupied_ofSlots]
      cases S with
      | nil => simp at ht'
      | cons t S =>
        simp at ht'
        subst ht'
        rw [occ_cons, if_neg htne]
        rfl
    · intro c' hc'
      obtain ⟨e', he', rfl⟩ := List.mem_map.1 hc'
      simpa [tup, leV, geV] using hall e' he'

/-! ## C25: shape -/

theorem shape_ofSlots {size : ℕ} (hsize : 1 ≤ size) {S : List (Slot P Y V)} (hlen : S.length = size)
    (hpre : S.Pairwise fun a b => a.2 = ⊥ → b.2 = ⊥) (b : Ent P Y V) (cache) :
    let p := ofSlots (S ++ [(b, ⊥)]) cache
    p.slots.length = size ∧ (p.slots.map Prod.snd).Pairwise (fun c d => c = some ⊥ → d = some ⊥) ∧
      p.occupied.length ≤ size ∧
      ∀ n, n ≤ size → p.result n = ((p.occupied.take n).map (·.1), (p.occupied.take n).map (·.2.1)) := by
  intro p
  refine ⟨?_, ?_, ?_, ?_⟩
  · simp [p, slots_ofSlots, hlen]
  · simp only [p]
    rw [slots_ofSlots, List.map_map, List.pairwise_map]
    refine List.Pairwise.imp ?_ hpre
    intro a b h h1
    simp at h1 ⊢
    exact h h1
  · simp only [p]
    rw [occupied_ofSlots, List.length_map]
    have := (occ_sublist S).length_le
    simpa [hlen] using this
  · intro n hn
    have hplen : p.len = size := by simp [p, hlen]
    obtain ⟨O, R, hS, hO, hR⟩ : ∃ O R : List (Slot P Y V), S = O ++ R ∧ (∀ t ∈ O, t.2 ≠ ⊥) ∧ ∀ t ∈ R, t.2 = ⊥ := by
      clear hplen hn hlen
      clear_value p
      clear p
      induction S with
      | nil => exact ⟨[], [], rfl, by simp, by simp⟩
      | cons a S ih =>
        by_cases ha : a.2 = ⊥
        · refine ⟨[], a :: S, rfl, by simp, ?_⟩
          intro t ht
          rcases List.mem_cons.1 ht with rfl | ht
          · exact ha
          · exact (List.pairwise_cons.1 hpre).1 t ht ha
        · obtain ⟨O, R, rfl, h1, h2⟩ := ih (List.pairwise_cons.1 hpre).2
          refine ⟨a :: O, R, rfl, ?_, h2⟩
          intro t ht
          rcases List.mem_cons.1 ht with rfl | ht
          · exact ha
          · exact h1 t ht
    have hocc : occ S = O.map Prod.fst := by
      rw [hS, occ_append, occ_empty hR, List.append_nil, occ_full hO]
    have hidx : (p.acqCond.take p.len).findIdx (fun c => decide (c = some ⊥)) = O.length := by
      have h1 : p.acqCond.take p.len = [] ++ (O.map fun t => some t.2) ++ R.map fun t => some t.2 := by
        rw [hplen]
        simp only [p, ofSlots, ← List.map_take]
        rw [List.take_append_of_le_length (by omega), List.take_of_length_le (by omega), hS]
        simp
      rw [h1, findIdx_append_all]
      · simp
      · simp
      · intro c hc; obtain ⟨t, ht, rfl⟩ := List.mem_map.1 hc; simpa using hO t ht
      · intro c hc; obtain ⟨t, ht, rfl⟩ := List.mem_map.1 hc; simpa using hR t ht
    have hOcc : p.occupied = O.map fun t => tup t.1 := by
      simp only [p]
      rw [occupied_ofSlots, hocc, List.map_map]; rfl
    unfold Pool.result
    simp only
    rw [hidx, hplen, hOcc]
    have hX : p.X = O.map (·.1.x) ++ (R.map (·.1.x) ++ [b.x]) := by simp [p, ofSlots, hS]
    have hY : p.y = O.map (·.1.y) ++ (R.map (·.1.y) ++ [b.y]) := by simp [p, ofSlots, hS]
    have hl := congrArg List.length hS
    rw [List.length_append, hlen] at hl
    split
    · rw [hX, hY, List.take_append_of_le_length (by simp), List.take_append_of_le_length (by simp),
        List.take_of_length_le (l := O.map (·.1.x)) (by simp), List.take_of_length_le (l := O.map (·.1.y)) (by simp)]
      simp [← List.map_take, tup]
    · rw [hX, hY, List.take_append_of_le_length (by simp; omega), List.take_append_of_le_length (by simp; omega)]
      simp [← List.map_take, tup]

theorem desc_prefix {S : List (Slot P Y V)} (h : Desc S) : S.Pairwise fun a b => a.2 = ⊥ → b.2 = ⊥ := by
  refine List.Pairwise.imp ?_ h
  intro a b h h0
  rw [h0] at h
  exact le_bot_iff.1 h

/-- **C25** (one by one) The pool keeps its size, the non-empty slots come first and are at most `size`; what
`multi_add` returns is the beginning of them; the pool is not empty if a candidate above `-inf` was offered. -/
theorem C25_single_shape {cfg : Cfg P Y V} (hnan : ∀ pre x y, cfg.cond pre x y ≠ none)
    (hsort : SortsDesc cfg.argsortDesc) {x0 : P} {y0 : Y} {a0 : V} {size : ℕ} (hsize : 1 ≤ size)
    (offered : List (Cand P Y V)) (p : Pool P Y V) (h : addMany cfg (Pool.init x0 y0 a0 size) offered = .ok p) :
    p.slots.length = size ∧ (p.slots.map Prod.snd).Pairwise (fun c d => c = some ⊥ → d = some ⊥) ∧
      p.occupied.length ≤ size ∧
      (∀ n, n ≤ size → p.result n = ((p.occupied.take n).map (·.1), (p.occupied.take n).map (·.2.1))) ∧
      ((∃ c ∈ offered, c.2.2.2 ≠ some ⊥) → p.occupied ≠ []) := by
  have htop := C24_single_top hnan hsort hsize offered p h
  obtain ⟨es, S, b, cache, rfl, rfl, hinv, _⟩ := addMany_init hnan hsort hsize offered p h
  obtain ⟨h1, h2, h3, h4⟩ := shape_ofSlots hsize hinv.len (desc_prefix hinv.desc) b cache
  refine ⟨h1, h2, h3, h4, ?_⟩
  intro hex h0
  obtain ⟨c, _, _, hc, _⟩ := htop hex
  rw [h0] at hc
  simp at hc

/-! ## C74: Kriging believer ranking -/

/-- A list of points with conditioned values is a Kriging-believer ranking of itself: every value is the acquisition
value conditioned on the points before, and no later point would have had a larger one. -/
def KBRanked (cond : List (P × Y) → P → Y → Option V) (l : List (Cand P Y V × Option V)) : Prop :=
  ∀ i t, l[i]? = some t →
    let pre := (l.take i).map fun u => (u.1.1, u.1.2.1)
    t.2 = cond pre t.1.1 t.1.2.1 ∧
    ∀ j u, i ≤ j → l[j]? = some u → leV (cond pre u.1.1 u.1.2.1) t.2 = true

theorem kb_of_ranking {cfg : Cfg P Y V} (hnan : ∀ pre x y, cfg.cond pre x y ≠ none) :
    ∀ (S : List (Slot P Y V)) (pre : List (P × Y)), Desc S → Ranking (val cfg) pre S → ∀ i t,
      ((S.filter fun t => decide (t.2 ≠ ⊥)).map fun t => (tup t.1, some t.2))[i]? = some t →
      let l := (S.filter fun t => decide (t.2 ≠ ⊥)).map fun t => (tup t.1, some t.2)
      let pre' := pre ++ (l.take i).map fun u => (u.1.1, u.1.2.1)
      t.2 = cfg.cond pre' t.1.1 t.1.2.1 ∧
      ∀ j u, i ≤ j → l[j]? = some u → leV (cfg.cond pre' u.1.1 u.1.2.1) t.2 = true := by
  intro S
  induction S with
  | nil => intro pre _ _ i t h; simp at h
  | cons s S ih =>
    intro pre hd hr i t ht
    have hdomall : ∀ u ∈ occ (s :: S), val cfg pre u.x u.y ≤ s.2 := ranking_head_dom hd hr
    by_cases hs : s.2 = ⊥
    · exfalso
      have hall : ∀ u ∈ s :: S, u.2 = ⊥ := by
        intro u hu
        rcases List.mem_cons.1 hu with rfl | hu
        · exact hs
        · have := (List.pairwise_cons.1 hd).1 u hu
          rw [hs] at this
          exact le_bot_iff.1 this
      have : (s :: S).filter (fun t => decide (t.2 ≠ ⊥)) = [] := by
        rw [List.filter_eq_nil_iff]
        intro u hu; simp [hall u hu]
      rw [this] at ht
      simp at ht
    · rcases hr with h | ⟨h1, h2, h3⟩
      · exact absurd h hs
      have hfil : (s :: S).filter (fun t => decide (t.2 ≠ ⊥)) = s :: S.filter (fun t => decide (t.2 ≠ ⊥)) := by
        simp [hs]
      rw [hfil, List.map_cons] at ht ⊢
      cases i with
      | zero =>
        simp only [List.getElem?_cons_zero, Option.some.injEq] at ht
        subst ht
        simp only [List.take_zero, List.map_nil, List.append_nil]
        refine ⟨?_, ?_⟩
        · rw [cond_val hnan, h1]; rfl
        · intro j u _ hu
          rw [cond_val hnan]
          have hmem : u ∈ (s :: S.filter (fun t => decide (t.2 ≠ ⊥))).map fun t => (tup t.1, some t.2) :=
            List.mem_of_getElem? hu
          obtain ⟨w, hw, rfl⟩ := List.mem_map.1 hmem
          rw [← hfil] at hw
          exact decide_eq_true (hdomall w.1 (List.mem_map.2 ⟨w, hw, rfl⟩))
      | succ i =>
        simp only [List.getElem?_cons_succ] at ht
        obtain ⟨h4, h5⟩ := ih _ (List.pairwise_cons.1 hd).2 h3 i t ht
        simp only [List.take_succ_cons, List.map_cons]
        rw [show (pre ++ ((tup s.1, some s.2).1.1, (tup s.1, some s.2).1.2.1) ::
            List.map (fun u => (u.1.1, u.1.2.1)) (((S.filter fun t => decide (t.2 ≠ ⊥)).map fun t => (tup t.1, some t.2)).take i)) =
            pre ++ [(s.1.x, s.1.y)] ++ List.map (fun u => (u.1.1, u.1.2.1))
              (((S.filter fun t => decide (t.2 ≠ ⊥)).map fun t => (tup t.1, some t.2)).take i) by simp [tup]]
        refine ⟨h4, ?_⟩
        intro j u hij hu
        cases j with
        | zero => omega
        | succ j => exact h5 j u (by omega) (by simpa using hu)

/-- **C74** (one by one) If lies never increase the acquisition function and the candidates are offered with their
unconditioned values, the non-empty slots are a Kriging-believer ranking of their own content: the caching of
conditioned models, the early stop of the search and the partial re-sorting never leave a stale value. -/
theorem C74_single_is_ranking {cfg : Cfg P Y V} (hnan : ∀ pre x y, cfg.cond pre x y ≠ none)
    (hsort : SortsDesc cfg.argsortDesc) (hshrink : Shrinks cfg.cond)
    {x0 : P} {y0 : Y} {a0 : V} {size : ℕ} (hsize : 1 ≤ size)
    (offered : List (Cand P Y V)) (hacq : ∀ c ∈ offered, c.2.2.2 = cfg.cond [] c.1 c.2.1)
    (p : Pool P Y V) (h : addMany cfg (Pool.init x0 y0 a0 size) offered = .ok p) :
    KBRanked cfg.cond (p.slots.filter fun t => decide (t.2 ≠ some ⊥)) := by
  obtain ⟨es, S, b, cache, rfl, rfl, hinv, _, _, _, hrank⟩ := addMany_init hnan hsort hsize offered p h
  have hR := hrank (shrinks_mono hnan hshrink) (by
    intro e he
    have := hacq (tup e) (List.mem_map.2 ⟨e, he, rfl⟩)
    rw [cond_val hnan] at this
    exact Option.some.inj this)
  have hfil : (ofSlots (S ++ [(b, (⊥ : V))]) cache).slots.filter (fun t => decide (t.2 ≠ some ⊥)) =
      (S.filter fun t => decide (t.2 ≠ ⊥)).map fun t => (tup t.1, some t.2) := by
    rw [slots_ofSlots, List.filter_map]
    congr 1
    apply List.filter_congr
    intro t _
    simp
  rw [hfil]
  intro i t ht
  have := kb_of_ranking hnan S [] hinv.desc hR i t ht
  simpa using this

end GPry.Ranked
