import Verif.PoolEx

set_option linter.all false

/-!
# Copies of a ranked pool, and pools without cached models (gp_acquisition.py:1234-1288, 1557-1596)
-/

namespace GPry.Ranked

variable {P Y V : Type*} [LinearOrder V] [BoundedOrder V]

/-- The rows of the arrays of a pool. -/
def Pool.rows (p : Pool P Y V) : List (Cand P Y V × Option V) := (p.X.zip (p.y.zip (p.sigma.zip p.acq))).zip p.acqCond

/-- gp_acquisition.py:1234-1235 `len(pool)`: Python refuses negative lengths. -/
def Pool.pyLen (p : Pool P Y V) : Except PErr ℕ := match p.y.length with
  | 0 => .error .valueError
  | n + 1 => .ok n

/-- gp_acquisition.py:1264-1276, 1287-1288 `str(pool)`: the points that are printed, in order (`range(len(self.X) - 1)`). -/
def Pool.shown (p : Pool P Y V) : List (Cand P Y V × Option V) := p.rows.take (p.X.length - 1)

/-- gp_acquisition.py:1575-1596 `copy(drop_empty=True)`: the arrays. (The copy has no surrogate, acquisition function or cached models, 1568-1573; `cache`
is left empty.) -/
def Pool.dropEmpty (p : Pool P Y V) : Pool P Y V :=
  let i := p.acqCond.dropLast.findIdx (fun c => decide (c = some ⊥))
  if i < p.acqCond.dropLast.length then ⟨p.X.take i, p.y.take i, p.sigma.take i, p.acq.take i, p.acqCond.take i, []⟩ else { p with cache := [] }

/-- gp_acquisition.py:1557-1562 `reset_cache` (`len(self.X - 1)` is the length of `X`). -/
def Pool.reset (p : Pool P Y V) : Pool P Y V := { p with cache := List.replicate p.X.length none }

/-! ## Copies -/

/-- Slots with the occupied ones first. -/
theorem split_slots : ∀ {S : List (Slot P Y V)}, (S.Pairwise fun a b => a.2 = ⊥ → b.2 = ⊥) →
    ∃ O R : List (Slot P Y V), S = O ++ R ∧ (∀ t ∈ O, t.2 ≠ ⊥) ∧ ∀ t ∈ R, t.2 = ⊥
  | [], _ => ⟨[], [], rfl, by simp, by simp⟩
  | a :: S, h => by
    by_cases ha : a.2 = ⊥
    · refine ⟨[], a :: S, rfl, by simp, ?_⟩
      intro t ht
      rcases List.mem_cons.1 ht with rfl | ht
      · exact ha
      · exact (List.pairwise_cons.1 h).1 t ht ha
    · obtain ⟨O, R, rfl, h1, h2⟩ := split_slots (List.pairwise_cons.1 h).2
      refine ⟨a :: O, R, rfl, ?_, h2⟩
      intro t ht
      rcases List.mem_cons.1 ht with rfl | ht
      · exact ha
      · exact h1 t ht

theorem rows_slots (S : List (Slot P Y V)) (cache) : (ofSlots S cache).rows = S.map fun t => (tup t.1, some t.2) := by
  induction S with
  | nil => rfl
  | cons a S ih =>
    simp only [Pool.rows, ofSlots, List.map_cons, List.zip_cons_cons, tup] at ih ⊢
    rw [ih]

theorem dropEmpty_slots {O R : List (Slot P Y V)} (hO : ∀ t ∈ O, t.2 ≠ ⊥) (hR : ∀ t ∈ R, t.2 = ⊥) (b : Ent P Y V) (cache) :
    (ofSlots (O ++ R ++ [(b, ⊥)]) cache).dropEmpty = if R = [] then ofSlots (O ++ [(b, ⊥)]) [] else ofSlots O [] := by
  have hd : (ofSlots (O ++ R ++ [(b, ⊥)]) cache).acqCond.dropLast = [] ++ (O.map fun t => some t.2) ++ R.map fun t => some t.2 := by
    simp [ofSlots]
  have hidx : (ofSlots (O ++ R ++ [(b, ⊥)]) cache).acqCond.dropLast.findIdx (fun c => decide (c = some ⊥)) = O.length := by
    rw [hd, findIdx_append_all]
    · simp
    · simp
    · intro c hc; obtain ⟨t, ht, rfl⟩ := List.mem_map.1 hc; simpa using hO t ht
    · intro c hc; obtain ⟨t, ht, rfl⟩ := List.mem_map.1 hc; simpa using hR t ht
  unfold Pool.dropEmpty
  dsimp only
  rw [hidx, hd]
  cases R with
  | nil => simp [ofSlots]
  | cons r R => simp [ofSlots]

/-- **C170**. After any insertions one by one into a new pool: if the pool is full, the copy has its points and one more row; otherwise the rows of the copy are
exactly the points in the pool, with their conditioned values. -/
theorem C170_copy {cfg : Cfg P Y V} (hnan : ∀ pre x y, cfg.cond pre x y ≠ none)
    (hsort : SortsDesc cfg.argsortDesc) {x0 : P} {y0 : Y} {a0 : V} {size : ℕ} (hsize : 1 ≤ size)
    (offered : List (Cand P Y V)) (p : Pool P Y V) (h : addMany cfg (Pool.init x0 y0 a0 size) offered = .ok p) :
    (p.dropEmpty.rows.take size).map Prod.fst = p.occupied ∧ p.dropEmpty.rows.take size = p.slots.filter (fun t => decide (t.2 ≠ some ⊥)) ∧
    p.dropEmpty.rows.length = (if p.occupied.length = size then size + 1 else p.occupied.length) := by
  obtain ⟨es, S, b, cache, rfl, rfl, hinv, _⟩ := addMany_init hnan hsort hsize offered p h
  obtain ⟨O, R, rfl, hO, hR⟩ := split_slots (desc_prefix hinv.desc)
  have hlen := hinv.len
  rw [List.length_append] at hlen
  have hf : (ofSlots (O ++ R ++ [(b, ⊥)]) cache).slots.filter (fun t => decide (t.2 ≠ some ⊥)) = O.map fun t => (tup t.1, some t.2) := by
    rw [slots_ofSlots, List.map_append, List.filter_append]
    have e1 : (O.map fun t => ((tup t.1, some t.2) : Cand P Y V × Option V)).filter (fun t => decide (t.2 ≠ some ⊥)) = O.map fun t => (tup t.1, some t.2) := by
      rw [List.filter_eq_self]
      intro t ht; obtain ⟨u, hu, rfl⟩ := List.mem_map.1 ht; simp [hO u hu]
    have e2 : (R.map fun t => ((tup t.1, some t.2) : Cand P Y V × Option V)).filter (fun t => decide (t.2 ≠ some ⊥)) = [] := by
      rw [List.filter_eq_nil_iff]
      intro t ht; obtain ⟨u, hu, rfl⟩ := List.mem_map.1 ht; simp [hR u hu]
    rw [e1, e2, List.append_nil]
  have ho : (ofSlots (O ++ R ++ [(b, ⊥)]) cache).occupied = (O.map fun t => ((tup t.1, some t.2) : Cand P Y V × Option V)).map Prod.fst := by
    unfold Pool.occupied; rw [hf]
  have hk : (ofSlots (O ++ R ++ [(b, ⊥)]) cache).dropEmpty.rows.take size = O.map fun t => (tup t.1, some t.2) := by
    rw [dropEmpty_slots hO hR]
    split_ifs with hr
    · subst hr
      rw [rows_slots, List.map_append, List.take_append_of_le_length (by simpa using hlen.ge), List.take_of_length_le (by simpa using hlen.le)]
    · rw [rows_slots, List.take_of_length_le (by simp; omega)]
  refine ⟨by rw [hk, ho], by rw [hk, hf], ?_⟩
  rw [dropEmpty_slots hO hR, ho]
  cases R with
  | nil => simp only [List.length_nil, Nat.add_zero] at hlen; simp [rows_slots, hlen]
  | cons r R =>
    simp only [List.length_cons] at hlen
    simp only [reduceCtorEq, if_false, rows_slots, List.length_map]
    rw [if_neg (by omega)]

/-- **C170** is false of the length and the printed content of copies of pools that are not full: both leave out the last point, and the length of the copy of a
pool without points raises. -/
theorem C170_length_counterexample {cfg : Cfg P Y V} (hnan : ∀ pre x y, cfg.cond pre x y ≠ none)
    (hsort : SortsDesc cfg.argsortDesc) {x0 : P} {y0 : Y} {a0 : V} {size : ℕ} (hsize : 1 ≤ size)
    (offered : List (Cand P Y V)) (p : Pool P Y V) (h : addMany cfg (Pool.init x0 y0 a0 size) offered = .ok p) (hk : p.occupied.length < size) :
    p.pyLen = .ok size ∧ p.shown.length = size ∧
    p.dropEmpty.shown.map Prod.fst = p.occupied.dropLast ∧
    p.dropEmpty.pyLen = (if p.occupied = [] then .error .valueError else .ok (p.occupied.length - 1)) := by
  obtain ⟨es, S, b, cache, rfl, rfl, hinv, _⟩ := addMany_init hnan hsort hsize offered p h
  obtain ⟨O, R, rfl, hO, hR⟩ := split_slots (desc_prefix hinv.desc)
  have hlen := hinv.len
  rw [List.length_append] at hlen
  have ho : (ofSlots (O ++ R ++ [(b, ⊥)]) cache).occupied = O.map fun t => tup t.1 := by
    rw [occupied_ofSlots, occ_append, occ_empty hR, List.append_nil, occ_full hO, List.map_map]; rfl
  rw [ho, List.length_map] at hk
  have hr : R ≠ [] := by rintro rfl; simp at hlen; omega
  refine ⟨?_, ?_, ?_, ?_⟩
  · have : (ofSlots (O ++ R ++ [(b, ⊥)]) cache).y.length = size + 1 := by simp [ofSlots]; omega
    unfold Pool.pyLen; rw [this]
  · unfold Pool.shown; rw [rows_slots]; simp [ofSlots]; omega
  · rw [dropEmpty_slots hO hR, if_neg hr, ho]
    unfold Pool.shown
    rw [rows_slots, List.dropLast_eq_take, ← List.map_take, List.map_map, ← List.map_take]
    simp [ofSlots, Function.comp_def]
  · rw [dropEmpty_slots hO hR, if_neg hr, ho]
    cases O with
    | nil => rfl
    | cons o O => simp [Pool.pyLen, ofSlots]

/-- **C170**. The length and the printed content of a copy are those of the pool if the pool is full. -/
theorem C170_full {cfg : Cfg P Y V} (hnan : ∀ pre x y, cfg.cond pre x y ≠ none)
    (hsort : SortsDesc cfg.argsortDesc) {x0 : P} {y0 : Y} {a0 : V} {size : ℕ} (hsize : 1 ≤ size)
    (offered : List (Cand P Y V)) (p : Pool P Y V) (h : addMany cfg (Pool.init x0 y0 a0 size) offered = .ok p) (hk : p.occupied.length = size) :
    p.dropEmpty.pyLen = .ok size ∧ p.dropEmpty.shown.map Prod.fst = p.occupied ∧ p.dropEmpty.shown = p.shown := by
  obtain ⟨es, S, b, cache, rfl, rfl, hinv, _⟩ := addMany_init hnan hsort hsize offered p h
  obtain ⟨O, R, rfl, hO, hR⟩ := split_slots (desc_prefix hinv.desc)
  have hlen := hinv.len
  rw [List.length_append] at hlen
  have ho : (ofSlots (O ++ R ++ [(b, ⊥)]) cache).occupied = O.map fun t => tup t.1 := by
    rw [occupied_ofSlots, occ_append, occ_empty hR, List.append_nil, occ_full hO, List.map_map]; rfl
  rw [ho, List.length_map] at hk
  obtain rfl : R = [] := List.length_eq_zero_iff.1 (by omega)
  rw [dropEmpty_slots hO hR, if_pos rfl, ho]
  refine ⟨?_, ?_, ?_⟩
  · have : (ofSlots (O ++ [(b, (⊥ : V))]) []).y.length = size + 1 := by simp [ofSlots]; omega
    unfold Pool.pyLen; rw [this]
  · unfold Pool.shown
    rw [rows_slots]
    simp [ofSlots]
  · unfold Pool.shown; rw [rows_slots, rows_slots]; simp [ofSlots]

/-- **C170**. Copying a copy changes nothing, whatever the pool. -/
theorem C170_twice (p : Pool P Y V) : p.dropEmpty.dropEmpty = p.dropEmpty := by
  have key : ∀ q : Pool P Y V, q.cache = [] → (∀ c ∈ q.acqCond.dropLast, c ≠ some ⊥) → q.dropEmpty = q := by
    intro q hc hq
    unfold Pool.dropEmpty
    dsimp only
    rw [if_neg]
    · cases q; cases hc; rfl
    · rw [not_lt, List.findIdx_eq_length.2]
      intro c hc'
      simpa using hq c hc'
  set i := p.acqCond.dropLast.findIdx (fun c => decide (c = some ⊥)) with hi
  by_cases h : i < p.acqCond.dropLast.length
  · have e : p.dropEmpty = ⟨p.X.take i, p.y.take i, p.sigma.take i, p.acq.take i, p.acqCond.take i, []⟩ := by
      unfold Pool.dropEmpty; dsimp only; rw [if_pos (by rw [← hi]; exact h)]
    rw [e]
    refine key _ rfl ?_
    intro c hc hb
    have hc := List.dropLast_subset _ hc
    obtain ⟨j, hj, rfl⟩ := List.mem_iff_getElem.1 hc
    have hj' : j < i := by simp at hj; omega
    have := List.not_of_lt_findIdx (p := fun c => decide (c = some ⊥)) (xs := p.acqCond.dropLast) (i := j) (by rw [← hi]; exact hj')
    simp at this hb
    exact this hb
  · have e : p.dropEmpty = { p with cache := [] } := by
      unfold Pool.dropEmpty; dsimp only; rw [if_neg (by rw [← hi]; exact h)]
    rw [e]
    refine key _ rfl ?_
    intro c hc hb
    have := List.findIdx_lt_length_of_exists (p := fun c => decide (c = some ⊥)) (xs := p.acqCond.dropLast) ⟨c, hc, by simpa using hb⟩
    exact h (by rw [hi]; exact this)

/-! ## Pools without cached models -/

/-- The same pool apart from the cached models. -/
def SameArrays (p q : Pool P Y V) : Prop := p.X = q.X ∧ p.y = q.y ∧ p.sigma = q.sigma ∧ p.acq = q.acq ∧ p.acqCond = q.acqCond

/-- Results that are the same apart from the cached models. -/
def SameResult : Except PErr (Pool P Y V) → Except PErr (Pool P Y V) → Prop
  | .ok p, .ok q => SameArrays p q
  | .error e, .error f => e = f
  | _, _ => False

theorem sameArrays_cacheModel {p q : Pool P Y V} (h : SameArrays p q) (i : ℕ) : SameArrays (p.cacheModel i) (q.cacheModel i) := by
  unfold Pool.cacheModel
  split_ifs
  · exact h
  · exact h

theorem sameArrays_sortFrom (cfg : Cfg P Y V) : ∀ (n : ℕ) {p q : Pool P Y V}, SameArrays p q → SameResult (sortFrom cfg n p) (sortFrom cfg n q)
  | 0, _, _, h => h
  | n + 1, p, q, h => by
    obtain ⟨X, y, s, a, ac, c⟩ := p
    obtain ⟨X', y', s', a', ac', c'⟩ := q
    obtain ⟨h1, h2, h3, h4, h5⟩ := h
    dsimp only at h1 h2 h3 h4 h5
    subst h1 h2 h3 h4 h5
    have hc : ∀ (c : List (Option (List (P × Y)))) (i : ℕ), ∃ c1, (Pool.mk X y s a ac c).cacheModel i = Pool.mk X y s a ac c1 := by
      intro c i
      unfold Pool.cacheModel
      split_ifs
      · exact ⟨_, rfl⟩
      · exact ⟨_, rfl⟩
    have hl : ∀ c, (Pool.mk X y s a ac c).len = y.length - 1 := fun _ => rfl
    unfold sortFrom
    dsimp only
    rw [hl, hl]
    obtain ⟨c1, e1⟩ := hc c (y.length - 1 - (n + 1))
    obtain ⟨c2, e2⟩ := hc c' (y.length - 1 - (n + 1))
    rw [e1, e2]
    dsimp only [Pool.pre]
    split_ifs with g1 g2
    · exact ⟨rfl, rfl, rfl, rfl, rfl⟩
    all_goals
      split
      · rfl
      · split_ifs
        · exact ⟨rfl, rfl, rfl, rfl, rfl⟩
        · exact sameArrays_sortFrom cfg n ⟨rfl, rfl, rfl, rfl, rfl⟩

/-- **C170**. After `reset_cache`, adding a point that goes between others in the pool raises AttributeError; any other point is added (or not) as if the models had
been kept. -/
theorem C170_reset (cfg : Cfg P Y V) (p : Pool P Y V) (x : P) (y s : Y) (a : V) :
    (leV (some a) p.minAcq = false → 0 < posFrom p.acqCond (some a) p.len → posFrom p.acqCond (some a) p.len < p.len →
      addOne cfg p.reset x y s (some a) = .error .attributeError) ∧
    (leV (some a) p.minAcq = true ∨ posFrom p.acqCond (some a) p.len = 0 ∨ posFrom p.acqCond (some a) p.len = p.len →
      SameResult (addOne cfg p.reset x y s (some a)) (addOne cfg p x y s (some a))) := by
  have hm : p.reset.minAcq = p.minAcq := rfl
  have hl : p.reset.len = p.len := rfl
  have ha : p.reset.acqCond = p.acqCond := rfl
  constructor
  · intro h1 h2 h3
    unfold addOne
    rw [hm, if_neg (by simp [h1])]
    dsimp only
    have : search cfg p.reset x y (p.reset.len + 2) (some a) p.reset.len = .error .attributeError := by
      unfold search
      dsimp only
      rw [hl, ha, if_neg (by omega)]
      have : p.reset.cache.getD (posFrom p.acqCond (some a) p.len - 1) none = none := by
        simp only [Pool.reset, List.getD_eq_getElem?_getD, List.getElem?_replicate]
        split_ifs <;> rfl
      rw [this]
    rw [this]
  · intro h
    unfold addOne
    rw [hm]
    by_cases h1 : leV (some a) p.minAcq = true
    · rw [if_pos h1, if_pos h1]; exact ⟨rfl, rfl, rfl, rfl, rfl⟩
    · rw [if_neg h1, if_neg h1]
      dsimp only
      have h2 : posFrom p.acqCond (some a) p.len = 0 ∨ posFrom p.acqCond (some a) p.len = p.len := h.resolve_left h1
      have e1 : search cfg p.reset x y (p.reset.len + 2) (some a) p.reset.len = .ok (posFrom p.acqCond (some a) p.len, some a) := by
        unfold search; dsimp only; rw [hl, ha, if_pos (by tauto)]
      have e2 : search cfg p x y (p.len + 2) (some a) p.len = .ok (posFrom p.acqCond (some a) p.len, some a) := by
        unfold search; dsimp only; rw [if_pos (by tauto)]
      rw [e1, e2]
      dsimp only
      rw [hl]
      split_ifs
      · exact ⟨rfl, rfl, rfl, rfl, rfl⟩
      · unfold sort
        dsimp only [Pool.len, Pool.reset]
        generalize hp : sortFrom cfg _ _ = r
        generalize hq : sortFrom cfg _ _ = r'
        have hs : SameResult r r' := by
          rw [← hp, ← hq]
          exact sameArrays_sortFrom cfg _ ⟨rfl, rfl, rfl, rfl, rfl⟩
        cases r <;> cases r' <;> simp only [SameResult] at hs ⊢
        · exact hs
        · obtain ⟨g1, g2, g3, g4, g5⟩ := hs
          exact ⟨g1, g2, g3, g4, by simp only [g5]⟩
      · rfl

/-! ## Examples -/

/-- Two points in a pool of three: the copy has both, a length of 1 and prints the first one only. -/
example : ∃ p, addMany exP (Pool.init 0 () 0 3) [exC 0, exC 2] = .ok p ∧ p.dropEmpty.X = [0, 2] ∧ p.dropEmpty.pyLen = .ok 1 ∧
    p.dropEmpty.shown.map (·.1.1) = [0] := ⟨_, rfl, by decide +kernel⟩

/-- No candidate above minus infinity: the length of the copy raises. -/
example : ∃ p, addMany exP (Pool.init 0 () 0 3) [exC 4] = .ok p ∧ p.dropEmpty.pyLen = .error .valueError := ⟨_, rfl, by decide +kernel⟩

/-- The theorem for the pool of two points. -/
example (p : Pool ℕ Unit (Fin 1001)) (h : addMany exP (Pool.init 0 () 0 3) [exC 0, exC 2] = .ok p) (hk : p.occupied.length < 3) :
    p.dropEmpty.shown.map Prod.fst = p.occupied.dropLast := (C170_length_counterexample exP_nan exSort_sorts (by omega) _ p h hk).2.2.1

/-- Seven candidates, three slots: the copy has four rows, and prints three. -/
example : ∃ p, addMany exP (Pool.init 0 () 0 3) exOffered = .ok p ∧ p.dropEmpty.rows.length = 4 ∧ p.dropEmpty.shown.length = 3 := ⟨_, rfl, by decide +kernel⟩

/-- After `reset_cache`, a point between the two ones of the pool raises; a point above them is added. -/
example : ∃ p, addMany exP (Pool.init 0 () 0 3) [exC 0, exC 3] = .ok p ∧
    (match addOne exP p.reset 2 () () (some 80) with | .error e => decide (e = .attributeError) | .ok _ => false) = true ∧
    (match addOne exP p 2 () () (some 80) with | .error _ => false | .ok q => decide (q.X.take 3 = [0, 2, 3])) = true ∧
    (match addOne exP p.reset 6 () () (some 300) with | .error _ => false | .ok q => decide (q.X.take 3 = [6, 0, 3])) = true := ⟨_, rfl, by decide +kernel⟩

/-- The theorems for a full pool. -/
example (p : Pool ℕ Unit (Fin 1001)) (h : addMany exP (Pool.init 0 () 0 3) exOffered = .ok p) (hk : p.occupied.length = 3) :
    p.dropEmpty.rows.length = 4 ∧ p.dropEmpty.pyLen = .ok 3 ∧ p.dropEmpty.dropEmpty.shown = p.shown := by
  refine ⟨?_, (C170_full exP_nan exSort_sorts (by omega) _ p h hk).1, ?_⟩
  · rw [(C170_copy exP_nan exSort_sorts (by omega) _ p h).2.2, if_pos hk]
  · rw [C170_twice, (C170_full exP_nan exSort_sorts (by omega) _ p h hk).2.2]

end GPry.Ranked
