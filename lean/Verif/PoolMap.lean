import Verif.PoolAny

/-!
# Ranked pools under a change of the points and of their values

Two lemmas about pools: they commute with a change of all their content, and what is in empty slots has no influence. Together: the
ranking of changed candidates gives the changed result, although the empty slots hold zeros in both cases.
-/

set_option linter.all false

namespace GPry.Ranked

open GPry.Gpr (maskL)

variable {P Y P' Y' V : Type*} [LinearOrder V] [BoundedOrder V]

/-! ## Change of all the content -/

section Map
variable (f : P → P') (g : Y → Y')

/-- A pool after a change of points and of values. -/
def mapPool (p : Pool P Y V) : Pool P' Y' V :=
  ⟨p.X.map f, p.y.map g, p.sigma.map g, p.acq, p.acqCond, p.cache.map (Option.map (List.map (Prod.map f g)))⟩

/-- A candidate after a change of points and of values. -/
def mapCand (c : Cand P Y V) : Cand P' Y' V := (f c.1, g c.2.1, g c.2.2.1, c.2.2.2)

/-- Corresponding external functions. -/
structure Same (cfg : Cfg P Y V) (cfg' : Cfg P' Y' V) : Prop where
  cond : ∀ pre x y, cfg'.cond (pre.map (Prod.map f g)) (f x) (g y) = cfg.cond pre x y
  argsort : cfg'.argsortDesc = cfg.argsortDesc

variable {f g} {cfg : Cfg P Y V} {cfg' : Cfg P' Y' V}

@[simp] theorem len_mapPool (p : Pool P Y V) : (mapPool f g p).len = p.len := by simp [Pool.len, mapPool]

theorem pre_mapPool (p : Pool P Y V) (i : ℕ) : (mapPool f g p).pre i = (p.pre i).map (Prod.map f g) := by
  simp only [Pool.pre, mapPool, List.zip_map, List.map_take]

theorem cacheModel_mapPool (p : Pool P Y V) (i : ℕ) : (mapPool f g p).cacheModel i = mapPool f g (p.cacheModel i) := by
  unfold Pool.cacheModel
  split
  · rfl
  · rw [pre_mapPool]
    simp [mapPool, List.map_set]

theorem slice_mapL {α β : Type*} (h : α → β) (l : List α) (a b : ℕ) : slice (l.map h) a b = (slice l a b).map h := by
  simp [slice, List.map_take, List.map_drop]

theorem search_mapPool (h : Same f g cfg cfg') (p : Pool P Y V) (x : P) (y : Y) : ∀ (fuel : ℕ) (a : Option V) (last : ℕ),
    search cfg' (mapPool f g p) (f x) (g y) fuel a last = search cfg p x y fuel a last
  | 0, a, last => rfl
  | fuel + 1, a, last => by
    unfold search
    rw [len_mapPool, show (mapPool f g p).acqCond = p.acqCond from rfl]
    dsimp only
    split
    · rfl
    · have hc : (mapPool f g p).cache.getD (posFrom p.acqCond a p.len - 1) none =
          (p.cache.getD (posFrom p.acqCond a p.len - 1) none).map (List.map (Prod.map f g)) := by
        simp only [mapPool, List.getD_eq_getElem?_getD, List.getElem?_map]
        cases p.cache[posFrom p.acqCond a p.len - 1]? <;> rfl
      rw [hc]
      cases p.cache.getD (posFrom p.acqCond a p.len - 1) none with
      | none => rfl
      | some pre =>
        simp only [Option.map_some, h.cond]
        exact search_mapPool h p x y fuel _ _

theorem sortFrom_mapPool (h : Same f g cfg cfg') : ∀ (n : ℕ) (p : Pool P Y V),
    sortFrom cfg' n (mapPool f g p) = (sortFrom cfg n p).map (mapPool f g)
  | 0, p => rfl
  | n + 1, p => by
    unfold sortFrom
    rw [len_mapPool]
    dsimp only
    rw [cacheModel_mapPool]
    generalize p.len - (n + 1) = i
    generalize p.cacheModel i = p
    rw [show (mapPool f g p).acqCond = p.acqCond from rfl]
    split
    · rfl
    · generalize p.acqCond.findIdx (fun c => decide (c = some ⊥)) = i1
      have hac : ((slice (mapPool f g p).X i i1).zip (slice (mapPool f g p).y i i1)).map (fun q => cfg'.cond ((mapPool f g p).pre i) q.1 q.2) =
          ((slice p.X i i1).zip (slice p.y i i1)).map fun q => cfg.cond (p.pre i) q.1 q.2 := by
        rw [pre_mapPool]
        simp only [mapPool, slice_mapL, List.zip_map, List.map_map]
        apply List.map_congr_left
        intro q _
        exact h.cond _ _ _
      rw [hac, h.argsort]
      generalize (if i = 0 then ((slice p.X i i1).zip (slice p.y i i1)).map fun q => cfg.cond (p.pre i) q.1 q.2 else
        (((slice p.X i i1).zip (slice p.y i i1)).map fun q => cfg.cond (p.pre i) q.1 q.2).map fun v => npMin2 v (p.acqCond.getD (i - 1) none)) = ac
      cases cfg.argsortDesc ac with
      | nil => rfl
      | cons j0 js =>
        dsimp only
        split
        · rfl
        · rw [← sortFrom_mapPool h n]
          simp only [mapPool, map_reorder]

theorem addOne_mapPool (h : Same f g cfg cfg') (p : Pool P Y V) (x : P) (y s : Y) (a : Option V) :
    addOne cfg' (mapPool f g p) (f x) (g y) (g s) a = (addOne cfg p x y s a).map (mapPool f g) := by
  unfold addOne
  rw [show (mapPool f g p).minAcq = p.minAcq by simp [Pool.minAcq, mapPool, Pool.len]]
  split
  · rfl
  · cases a with
    | none => rfl
    | some v =>
      dsimp only
      rw [len_mapPool, search_mapPool h]
      cases search cfg p x y (p.len + 2) (some v) p.len with
      | error e => rfl
      | ok r =>
        obtain ⟨i, ac⟩ := r
        dsimp only
        split
        · rfl
        · split
          · have e : (⟨shift (mapPool f g p).X i (f x), shift (mapPool f g p).y i (g y), shift (mapPool f g p).sigma i (g s),
                shift (mapPool f g p).acq i (some v), shift (mapPool f g p).acqCond i ac, (mapPool f g p).cache⟩ : Pool P' Y' V) =
                mapPool f g ⟨shift p.X i x, shift p.y i y, shift p.sigma i s, shift p.acq i (some v), shift p.acqCond i ac, p.cache⟩ := by
              simp only [mapPool, map_shift]
            rw [e]
            unfold sort
            rw [len_mapPool, sortFrom_mapPool h]
            cases sortFrom cfg _ _ <;> rfl
          · rfl

theorem addMany_mapPool (h : Same f g cfg cfg') : ∀ (l : List (Cand P Y V)) (p : Pool P Y V),
    addMany cfg' (mapPool f g p) (l.map (mapCand f g)) = (addMany cfg p l).map (mapPool f g)
  | [], p => rfl
  | c :: l, p => by
    obtain ⟨x, y, s, a⟩ := c
    simp only [List.map_cons, mapCand, addMany, addOne_mapPool h]
    cases addOne cfg p x y s a with
    | error e => rfl
    | ok p => exact addMany_mapPool h l p

theorem init_mapPool (x0 : P) (y0 : Y) (a0 : V) (size : ℕ) : mapPool f g (Pool.init x0 y0 a0 size : Pool P Y V) = Pool.init (f x0) (g y0) a0 size := by
  simp [mapPool, Pool.init]

theorem bulkFrom_mapPool (h : Same f g cfg cfg') : ∀ (n : ℕ) (X : List P) (y s : List Y) (a : List (Option V)) (p : Pool P Y V),
    bulkFrom cfg' (X.map f) (y.map g) (s.map g) a n (mapPool f g p) = mapPool f g (bulkFrom cfg X y s a n p) := by
  intro n
  induction n with
  | zero =>
    intro X y s a p
    unfold bulkFrom
    rw [len_mapPool]
    dsimp only
    rw [cacheModel_mapPool]
    generalize p.len - 1 - 0 = i
    generalize p.cacheModel i = p
    have hac : ((X.map f).zip (y.map g)).map (fun q => cfg'.cond ((mapPool f g p).pre i) q.1 q.2) = (X.zip y).map fun q => cfg.cond (p.pre i) q.1 q.2 := by
      rw [pre_mapPool, List.zip_map, List.map_map]
      apply List.map_congr_left
      intro q _
      exact h.cond _ _ _
    rw [hac]
    generalize (if i = 0 then a else (X.zip y).map fun q => cfg.cond (p.pre i) q.1 q.2) = ac
    simp only [List.getElem?_map]
    rcases X[argmax ac]? with _ | xm <;> rcases y[argmax ac]? with _ | ym <;> rcases s[argmax ac]? with _ | sm <;>
      rcases a[argmax ac]? with _ | am <;> rcases ac[argmax ac]? with _ | m <;> try rfl
    simp only [Option.map_some]
    split
    · rfl
    · simp [mapPool, List.map_set]
  | succ n ih =>
    intro X y s a p
    unfold bulkFrom
    rw [len_mapPool]
    dsimp only
    rw [cacheModel_mapPool]
    generalize p.len - 1 - (n + 1) = i
    generalize p.cacheModel i = p
    have hac : ((X.map f).zip (y.map g)).map (fun q => cfg'.cond ((mapPool f g p).pre i) q.1 q.2) = (X.zip y).map fun q => cfg.cond (p.pre i) q.1 q.2 := by
      rw [pre_mapPool, List.zip_map, List.map_map]
      apply List.map_congr_left
      intro q _
      exact h.cond _ _ _
    rw [hac]
    generalize (if i = 0 then a else (X.zip y).map fun q => cfg.cond (p.pre i) q.1 q.2) = ac
    simp only [List.getElem?_map]
    rcases X[argmax ac]? with _ | xm <;> rcases y[argmax ac]? with _ | ym <;> rcases s[argmax ac]? with _ | sm <;>
      rcases a[argmax ac]? with _ | am <;> rcases ac[argmax ac]? with _ | m <;> try rfl
    simp only [Option.map_some]
    split
    · rfl
    · rw [map_maskL, map_maskL, map_maskL, ← ih]
      simp [mapPool, List.map_set]

theorem addBulk_mapPool (h : Same f g cfg cfg') (X : List P) (y s : List Y) (a : List (Option V)) (p : Pool P Y V) :
    addBulk cfg' (mapPool f g p) (X.map f) (y.map g) (s.map g) a = mapPool f g (addBulk cfg p X y s a) := by
  unfold addBulk
  rw [len_mapPool, bulkFrom_mapPool h]

theorem rankAll_mapPool (h : Same f g cfg cfg') (x0 : P) (y0 : Y) (a0 : V) (size : ℕ) : ∀ (shares : List (List (Cand P Y V))),
    rankAll cfg' (f x0) (g y0) a0 size (shares.map (List.map (mapCand f g))) = (rankAll cfg x0 y0 a0 size shares).map (List.map (mapPool f g))
  | [] => rfl
  | l :: ls => by
    rw [List.map_cons]
    unfold rankAll
    rw [← init_mapPool, addMany_mapPool h, rankAll_mapPool h x0 y0 a0 size ls]
    cases addMany cfg (Pool.init x0 y0 a0 size) l with
    | error e => rfl
    | ok p => cases rankAll cfg x0 y0 a0 size ls <;> rfl

theorem mergePools_mapPool (h : Same f g cfg cfg') (x0 : P) (y0 : Y) (a0 : V) (size : ℕ) (pools : List (Pool P Y V)) :
    mergePools cfg' (f x0) (g y0) a0 size (pools.map (mapPool f g)) = mapPool f g (mergePools cfg x0 y0 a0 size pools) := by
  have key : ∀ pools : List (Pool P Y V), addBulk cfg' (Pool.init (f x0) (g y0) a0 size)
      (maskL (((pools.map (mapPool f g)).flatMap fun p => p.acqCond.take p.len).map isFin) ((pools.map (mapPool f g)).flatMap fun p => p.X.take p.len))
      (maskL (((pools.map (mapPool f g)).flatMap fun p => p.acqCond.take p.len).map isFin) ((pools.map (mapPool f g)).flatMap fun p => p.y.take p.len))
      (maskL (((pools.map (mapPool f g)).flatMap fun p => p.acqCond.take p.len).map isFin) ((pools.map (mapPool f g)).flatMap fun p => p.sigma.take p.len))
      (maskL (((pools.map (mapPool f g)).flatMap fun p => p.acqCond.take p.len).map isFin) ((pools.map (mapPool f g)).flatMap fun p => p.acq.take p.len)) =
      mapPool f g (addBulk cfg (Pool.init x0 y0 a0 size)
        (maskL ((pools.flatMap fun p => p.acqCond.take p.len).map isFin) (pools.flatMap fun p => p.X.take p.len))
        (maskL ((pools.flatMap fun p => p.acqCond.take p.len).map isFin) (pools.flatMap fun p => p.y.take p.len))
        (maskL ((pools.flatMap fun p => p.acqCond.take p.len).map isFin) (pools.flatMap fun p => p.sigma.take p.len))
        (maskL ((pools.flatMap fun p => p.acqCond.take p.len).map isFin) (pools.flatMap fun p => p.acq.take p.len))) := by
    intro pools
    rw [← addBulk_mapPool h, init_mapPool]
    simp only [List.flatMap_map, len_mapPool]
    have h1 : ∀ p : Pool P Y V, (mapPool f g p).X.take p.len = (p.X.take p.len).map f := fun p => by simp [mapPool, List.map_take]
    have h2 : ∀ p : Pool P Y V, (mapPool f g p).y.take p.len = (p.y.take p.len).map g := fun p => by simp [mapPool, List.map_take]
    have h3 : ∀ p : Pool P Y V, (mapPool f g p).sigma.take p.len = (p.sigma.take p.len).map g := fun p => by simp [mapPool, List.map_take]
    simp only [h1, h2, h3, ← List.map_flatMap, map_maskL]
    rfl
  rcases pools with _ | ⟨p, _ | ⟨p', ps⟩⟩
  · exact key []
  · rfl
  · exact key (p :: p' :: ps)

theorem result_mapPool (p : Pool P Y V) (n : ℕ) : (mapPool f g p).result n = ((p.result n).1.map f, (p.result n).2.map g) := by
  unfold Pool.result
  rw [len_mapPool, show (mapPool f g p).acqCond = p.acqCond from rfl]
  dsimp only
  split <;> simp [mapPool, List.map_take]

end Map

/-! ## What is in the empty slots -/

section Agree
variable {G : P × Y → Prop} {cfg cfg' : Cfg P Y V}

/-- External functions that agree on the good points (those that are not in empty slots). -/
structure Agree (G : P × Y → Prop) (cfg cfg' : Cfg P Y V) : Prop where
  cond : ∀ pre x y, (∀ q ∈ pre, G q) → G (x, y) → cfg'.cond pre x y = cfg.cond pre x y
  argsort : cfg'.argsortDesc = cfg.argsortDesc
  perm : ∀ l, (cfg.argsortDesc l).Perm (List.range l.length)

/-- The first rows are good, the other ones are empty, and only good points are in the cached models. -/
structure Clean (G : P × Y → Prop) (S E : List (Row P Y V)) (cache : List (Option (List (P × Y)))) : Prop where
  good : ∀ r ∈ S, G (r.1.1, r.1.2.1)
  empty : ∀ r ∈ E, r.2 = some ⊥
  cache : ∀ l, some l ∈ cache → ∀ q ∈ l, G q

theorem pre_rows (R : List (Row P Y V)) (cache) (i : ℕ) : (ofRows R cache).pre i = (R.take i).map fun r => (r.1.1, r.1.2.1) := by
  simp only [Pool.pre, ofRows, List.zip_map', List.map_take]

theorem pre_clean {S E : List (Row P Y V)} {cache} (hc : Clean G S E cache) {i : ℕ} (hi : i ≤ S.length) :
    ∀ q ∈ (ofRows (S ++ E) cache).pre i, G q := by
  intro q hq
  rw [pre_rows, List.take_append_of_le_length hi] at hq
  obtain ⟨r, hr, rfl⟩ := List.mem_map.1 hq
  exact hc.good r (List.mem_of_mem_take hr)

theorem cacheModel_clean {S E : List (Row P Y V)} {cache} (hc : Clean G S E cache) {i : ℕ} (hi : i ≤ S.length) :
    ∃ cache', (ofRows (S ++ E) cache).cacheModel i = ofRows (S ++ E) cache' ∧ Clean G S E cache' := by
  unfold Pool.cacheModel
  split
  · exact ⟨cache, rfl, hc⟩
  · refine ⟨_, rfl, hc.good, hc.empty, fun l hl q hq => ?_⟩
    rcases List.mem_or_eq_of_mem_set hl with h | h
    · exact hc.cache l h q hq
    · rw [Option.some.inj h] at hq
      exact pre_clean hc hi q hq

theorem search_agree (h : Agree G cfg cfg') {p : Pool P Y V} (hc : ∀ l, some l ∈ p.cache → ∀ q ∈ l, G q) {x : P} {y : Y} (hx : G (x, y)) :
    ∀ (fuel : ℕ) (a : Option V) (last : ℕ), search cfg' p x y fuel a last = search cfg p x y fuel a last
  | 0, a, last => rfl
  | fuel + 1, a, last => by
    unfold search
    dsimp only
    split
    · rfl
    · cases hg : p.cache.getD (posFrom p.acqCond a p.len - 1) none with
      | none => rfl
      | some pre =>
        have hm : some pre ∈ p.cache := by
          rw [List.getD_eq_getElem?_getD] at hg
          cases hq : p.cache[posFrom p.acqCond a p.len - 1]? with
          | none => rw [hq] at hg; cases hg
          | some o =>
            rw [hq] at hg
            simp only [Option.getD_some] at hg
            exact hg ▸ List.mem_of_getElem? hq
        simp only
        rw [h.cond pre x y (hc pre hm) hx]
        exact search_agree h hc hx fuel _ _

theorem search_pos {p : Pool P Y V} {x : P} {y : Y} : ∀ {fuel : ℕ} {a : Option V} {last i : ℕ} {b : Option V},
    search cfg p x y fuel a last = .ok (i, b) → i = posFrom p.acqCond b p.len
  | 0, a, last, i, b, h => by cases h
  | fuel + 1, a, last, i, b, h => by
    unfold search at h
    dsimp only at h
    split at h
    · simp only [Except.ok.injEq, Prod.mk.injEq] at h
      rw [← h.1, ← h.2]
    · split at h
      · cases h
      · exact search_pos h

theorem sortRows_append {S E : List (Row P Y V)} {i i1 : ℕ} {ac : List (Option V)} {js : List ℕ} (hi : i ≤ i1) (hi1 : i1 ≤ S.length)
    (hj : ∀ j ∈ js, j < i1 - i) : sortRows (S ++ E) i i1 ac js = sortRows S i i1 ac js ++ E := by
  unfold sortRows setSlice
  rw [List.take_append_of_le_length (by omega), List.drop_append_of_le_length hi1, ← List.append_assoc]
  congr 3
  apply List.filterMap_congr
  intro j hj'
  have := hj j hj'
  rw [List.getElem?_append_left (by omega)]

theorem sortRows_good {S : List (Row P Y V)} (hS : ∀ r ∈ S, G (r.1.1, r.1.2.1)) (i i1 : ℕ) (ac : List (Option V)) (js : List ℕ) :
    ∀ r ∈ sortRows S i i1 ac js, G (r.1.1, r.1.2.1) := by
  intro r hr
  unfold sortRows setSlice at hr
  rcases List.mem_append.1 hr with hr | hr
  · rcases List.mem_append.1 hr with hr | hr
    · exact hS r (List.mem_of_mem_take hr)
    · obtain ⟨j, _, hj⟩ := List.mem_filterMap.1 hr
      cases hq : S[i + j]? with
      | none => rw [hq] at hj; cases hj
      | some t =>
        rw [hq] at hj
        cases hv : ac[j]? with
        | none => rw [hv] at hj; cases hj
        | some v =>
          rw [hv] at hj
          simp only [Option.bind_some, Option.map_some, Option.some.injEq] at hj
          rw [← hj]
          exact hS t (List.mem_of_getElem? hq)
  · exact hS r (List.mem_of_mem_drop hr)

theorem sortFrom_agree (h : Agree G cfg cfg') : ∀ (n : ℕ) (S E : List (Row P Y V)) (cache), 0 < (S ++ E).length → (S ++ E).length - 1 - n ≤ S.length →
    Clean G S E cache → sortFrom cfg' n (ofRows (S ++ E) cache) = sortFrom cfg n (ofRows (S ++ E) cache) ∧
      ∀ p', sortFrom cfg n (ofRows (S ++ E) cache) = .ok p' →
        ∃ S' E' cache', p' = ofRows (S' ++ E') cache' ∧ S'.length = S.length ∧ E'.length = E.length ∧ Clean G S' E' cache' := by
  intro n
  induction n with
  | zero =>
    intro S E cache _ _ hc
    refine ⟨rfl, fun p' hp => ⟨S, E, cache, (Except.ok.inj hp).symm, rfl, rfl, hc⟩⟩
  | succ n ih =>
    intro S E cache hL hi hc
    unfold sortFrom
    rw [rows_len]
    dsimp only
    obtain ⟨cache', hcm, hc'⟩ := cacheModel_clean hc hi
    rw [hcm]
    generalize hieq : (S ++ E).length - 1 - (n + 1) = i at hi
    have hiL : i < (S ++ E).length := by omega
    split
    · exact ⟨rfl, fun p' hp => ⟨S, E, cache', (Except.ok.inj hp).symm, rfl, rfl, hc'⟩⟩
    · rename_i hne
      have hacq : ∀ (k : ℕ) (r : Row P Y V), (S ++ E)[k]? = some r → (ofRows (S ++ E) cache').acqCond[k]? = some r.2 := by
        intro k r hk
        simp only [ofRows, List.getElem?_map, hk, Option.map_some]
      have hiS : i < S.length := by
        by_contra hcon
        have hk : (S ++ E)[i]? = some (S ++ E)[i] := List.getElem?_eq_getElem hiL
        apply hne
        rw [List.getD_eq_getElem?_getD, hacq i _ hk, Option.getD_some]
        apply hc.empty
        rw [List.getElem_append_right (by omega)]
        exact List.getElem_mem _
      generalize hi1 : (ofRows (S ++ E) cache').acqCond.findIdx (fun c => decide (c = some ⊥)) = i1
      have hle : i1 ≤ S.length := by
        by_contra hcon
        push Not at hcon
        have h1 : i1 ≤ (S ++ E).length := by
          rw [← hi1]
          refine List.findIdx_le_length.trans (le_of_eq ?_)
          simp [ofRows]
        have h2 : S.length < (S ++ E).length := by omega
        have h3 := List.not_of_lt_findIdx (hi1 ▸ hcon : S.length < (ofRows (S ++ E) cache').acqCond.findIdx (fun c => decide (c = some ⊥)))
        have h4 := hacq S.length _ (List.getElem?_eq_getElem h2)
        have h5 : (S ++ E)[S.length].2 = some ⊥ := by
          apply hc.empty
          rw [List.getElem_append_right (le_refl _)]
          exact List.getElem_mem _
        rw [h5] at h4
        have h6 := (List.getElem?_eq_some_iff.1 h4).2
        simp [h6] at h3
      have hle' : i1 ≤ (S ++ E).length := by rw [List.length_append]; omega
      have hslice : slice (S ++ E) i i1 = slice S i i1 := by
        unfold slice
        rw [List.take_append_of_le_length hle]
      have hpairs : (slice (ofRows (S ++ E) cache').X i i1).zip (slice (ofRows (S ++ E) cache').y i i1) = (slice S i i1).map fun r => (r.1.1, r.1.2.1) := by
        simp only [ofRows, slice_mapL, List.zip_map', hslice]
      have hac : ((slice (ofRows (S ++ E) cache').X i i1).zip (slice (ofRows (S ++ E) cache').y i i1)).map
            (fun q => cfg'.cond ((ofRows (S ++ E) cache').pre i) q.1 q.2) =
          ((slice (ofRows (S ++ E) cache').X i i1).zip (slice (ofRows (S ++ E) cache').y i i1)).map
            fun q => cfg.cond ((ofRows (S ++ E) cache').pre i) q.1 q.2 := by
        apply List.map_congr_left
        intro q hq
        rw [hpairs] at hq
        obtain ⟨r, hr, rfl⟩ := List.mem_map.1 hq
        refine h.cond _ _ _ (pre_clean hc' hi) (hc.good r ?_)
        exact List.mem_of_mem_take (List.mem_of_mem_drop hr)
      rw [hac, h.argsort]
      have hl0 : (((slice (ofRows (S ++ E) cache').X i i1).zip (slice (ofRows (S ++ E) cache').y i i1)).map
            fun q => cfg.cond ((ofRows (S ++ E) cache').pre i) q.1 q.2).length = i1 - i := by
        rw [List.length_map, hpairs, List.length_map, slice_length hle]
      generalize (((slice (ofRows (S ++ E) cache').X i i1).zip (slice (ofRows (S ++ E) cache').y i i1)).map
            fun q => cfg.cond ((ofRows (S ++ E) cache').pre i) q.1 q.2) = ac0 at hl0 ⊢
      have hl : (if i = 0 then ac0 else ac0.map fun v => npMin2 v ((ofRows (S ++ E) cache').acqCond.getD (i - 1) none)).length = i1 - i := by
        split
        · exact hl0
        · rw [List.length_map, hl0]
      generalize (if i = 0 then ac0 else ac0.map fun v => npMin2 v ((ofRows (S ++ E) cache').acqCond.getD (i - 1) none)) = ac at hl ⊢
      have hp := h.perm ac
      rw [hl] at hp
      cases hjs : cfg.argsortDesc ac with
      | nil => exact ⟨rfl, fun p' hp => by cases hp⟩
      | cons j0 js =>
        rw [hjs] at hp
        have hlt : i < i1 := by
          have := hp.length_eq
          simp at this
          omega
        have hmem : ∀ j ∈ j0 :: js, j < i1 - i := fun j hj => List.mem_range.mp (hp.subset hj)
        dsimp only
        split
        · refine ⟨rfl, fun p' hp' => ?_⟩
          refine ⟨S.take i ++ ((slice S i i1).map fun r => (r.1, some ⊥)) ++ S.drop i1, E, cache', ?_, ?_, rfl, ?_, hc.empty, hc'.cache⟩
          · rw [← Except.ok.inj hp']
            have e : S.take i ++ ((slice S i i1).map fun r => (r.1, (some ⊥ : Option V))) ++ S.drop i1 ++ E =
                (S ++ E).take i ++ ((slice (S ++ E) i i1).map fun r => (r.1, (some ⊥ : Option V))) ++ (S ++ E).drop i1 := by
              rw [hslice, List.take_append_of_le_length hi, List.drop_append_of_le_length hle, List.append_assoc _ _ E]
            rw [e]
            unfold ofRows
            rw [empty_col (fun c => c.1) hlt.le, empty_col (fun c => c.2.1) hlt.le, empty_col (fun c => c.2.2.1) hlt.le, empty_col (fun c => c.2.2.2) hlt.le]
            congr 1
            simp only [setSlice, List.map_append, List.map_map, Function.comp_def, List.map_take, List.map_drop]
            congr 2
            · rw [List.map_const', slice_length hle']
          · have := congrArg List.length (split3 S hlt.le)
            simp only [List.length_append, List.length_map] at this ⊢
            exact this.symm
          · intro r hr
            rcases List.mem_append.1 hr with hr | hr
            · rcases List.mem_append.1 hr with hr | hr
              · exact hc.good r (List.mem_of_mem_take hr)
              · obtain ⟨t, ht, rfl⟩ := List.mem_map.1 hr
                exact hc.good t (List.mem_of_mem_take (List.mem_of_mem_drop ht))
            · exact hc.good r (List.mem_of_mem_drop hr)
        · have hrow : (⟨reorder (ofRows (S ++ E) cache').X i i1 (j0 :: js), reorder (ofRows (S ++ E) cache').y i i1 (j0 :: js),
              reorder (ofRows (S ++ E) cache').sigma i i1 (j0 :: js), reorder (ofRows (S ++ E) cache').acq i i1 (j0 :: js),
              setSlice (ofRows (S ++ E) cache').acqCond i i1 ((j0 :: js).filterMap fun j => ac[j]?), (ofRows (S ++ E) cache').cache⟩ : Pool P Y V) =
              ofRows (sortRows S i i1 ac (j0 :: js) ++ E) cache' := by
            rw [← sortRows_append hlt.le hle hmem]
            unfold ofRows
            simp only
            rw [sortRows_col (fun c => c.1) hl hmem, sortRows_col (fun c => c.2.1) hl hmem, sortRows_col (fun c => c.2.2.1) hl hmem,
              sortRows_col (fun c => c.2.2.2) hl hmem, sortRows_cond hl hle' hmem]
          rw [hrow]
          have hSl : (sortRows S i i1 ac (j0 :: js)).length = S.length := sortRows_length hlt.le hl hle hp
          obtain ⟨e1, e2⟩ := ih (sortRows S i i1 ac (j0 :: js)) E cache' (by rw [List.length_append, hSl, ← List.length_append]; exact hL)
            (by rw [List.length_append, hSl, ← List.length_append]; omega) ⟨sortRows_good hc.good _ _ _ _, hc.empty, hc'.cache⟩
          refine ⟨e1, fun p' hp' => ?_⟩
          obtain ⟨S', E', c', h1, h2, h3, h4⟩ := e2 p' hp'
          exact ⟨S', E', c', h1, by rw [h2, hSl], h3, h4⟩

/-- A pool of which the empty slots have no influence: rows, and a bound for the good ones. -/
def CleanPool (G : P × Y → Prop) (size : ℕ) (p : Pool P Y V) : Prop :=
  ∃ S E cache, p = ofRows (S ++ E) cache ∧ (S ++ E).length = size + 1 ∧ Clean G S E cache

theorem addOne_agree (h : Agree G cfg cfg') {size : ℕ} {p : Pool P Y V} (hp : CleanPool G size p) {x : P} {y s : Y} {a : Option V} (hx : G (x, y)) :
    addOne cfg' p x y s a = addOne cfg p x y s a ∧ ∀ p', addOne cfg p x y s a = .ok p' → CleanPool G size p' := by
  obtain ⟨S, E, cache, rfl, hL, hc⟩ := hp
  have hsame : CleanPool G size (ofRows (S ++ E) cache) := ⟨S, E, cache, rfl, hL, hc⟩
  unfold addOne
  split
  · exact ⟨rfl, fun p' hp' => Except.ok.inj hp' ▸ hsame⟩
  · cases a with
    | none => exact ⟨rfl, fun p' hp' => by cases hp'⟩
    | some v =>
      dsimp only
      rw [search_agree h hc.cache hx]
      cases hs : search cfg (ofRows (S ++ E) cache) x y ((ofRows (S ++ E) cache).len + 2) (some v) (ofRows (S ++ E) cache).len with
      | error e => exact ⟨rfl, fun p' hp' => by cases hp'⟩
      | ok r =>
        obtain ⟨i, ac⟩ := r
        dsimp only
        split
        · exact ⟨rfl, fun p' hp' => Except.ok.inj hp' ▸ hsame⟩
        · rename_i hi
          rw [rows_len] at hi
          split
          · rename_i hlt
            have hiS : i ≤ S.length := by
              have h1 := search_pos hs
              rcases posFrom_ge (ofRows (S ++ E) cache).acqCond ac (ofRows (S ++ E) cache).len with h2 | h2
              · omega
              · rw [← h1] at h2
                by_contra hcon
                have hlt' : i - 1 < (S ++ E).length := by omega
                have h3 : (ofRows (S ++ E) cache).acqCond.getD (i - 1) none = some ⊥ := by
                  rw [List.getD_eq_getElem?_getD]
                  simp only [ofRows, List.getElem?_map, List.getElem?_eq_getElem hlt', Option.map_some, Option.getD_some]
                  apply hc.empty
                  rw [List.getElem_append_right (by omega)]
                  exact List.getElem_mem _
                rw [h3] at h2
                cases ac with
                | none => cases h2
                | some w =>
                  simp only [geV, ltV, decide_eq_true_eq] at h2 hlt
                  exact absurd (lt_of_lt_of_le hlt h2) (lt_irrefl _)
            have hsh : (⟨shift (ofRows (S ++ E) cache).X i x, shift (ofRows (S ++ E) cache).y i y, shift (ofRows (S ++ E) cache).sigma i s,
                shift (ofRows (S ++ E) cache).acq i (some v), shift (ofRows (S ++ E) cache).acqCond i ac, (ofRows (S ++ E) cache).cache⟩ : Pool P Y V) =
                ofRows (shift (S ++ E) i ((x, y, s, some v), ac)) cache := by
              unfold ofRows
              simp only
              rw [← map_shift, ← map_shift, ← map_shift, ← map_shift, ← map_shift]
            have hlen : (shift (S ++ E) i ((x, y, s, some v), ac)).length = (S ++ E).length := shift_length _ i _ (by omega)
            obtain ⟨S1, E1, hSE, hS1, hc1⟩ : ∃ S1 E1, shift (S ++ E) i ((x, y, s, some v), ac) = S1 ++ E1 ∧ i + 1 ≤ S1.length ∧ Clean G S1 E1 cache := by
              rcases List.eq_nil_or_concat E with rfl | ⟨E0, z, rfl⟩
              · refine ⟨shift S i ((x, y, s, some v), ac), [], by simp, ?_, ?_, by simp, hc.cache⟩
                · simp [shift]; omega
                · intro r hr
                  unfold shift at hr
                  rcases List.mem_append.1 hr with hr | hr
                  · exact hc.good r (List.mem_of_mem_take hr)
                  · rcases List.mem_cons.1 hr with rfl | hr
                    · exact hx
                    · exact hc.good r (List.mem_of_mem_drop ((List.dropLast_subset _) hr))
              · refine ⟨S.take i ++ ((x, y, s, some v), ac) :: S.drop i, E0, ?_, ?_, ?_, fun r hr => hc.empty r (by simp [hr]), hc.cache⟩
                · unfold shift
                  rw [List.take_append_of_le_length hiS, List.drop_append_of_le_length hiS, List.concat_eq_append, ← List.append_assoc, List.dropLast_concat]
                  simp
                · simp; omega
                · intro r hr
                  rcases List.mem_append.1 hr with hr | hr
                  · exact hc.good r (List.mem_of_mem_take hr)
                  · rcases List.mem_cons.1 hr with rfl | hr
                    · exact hx
                    · exact hc.good r (List.mem_of_mem_drop hr)
            rw [hsh, hSE]
            rw [hSE] at hlen
            unfold sort
            rw [rows_len]
            obtain ⟨e1, e2⟩ := sortFrom_agree h ((S1 ++ E1).length - 1 - (i + 1)) S1 E1 cache (by omega) (by omega) hc1
            rw [e1]
            refine ⟨rfl, fun p' hp' => ?_⟩
            cases hq : sortFrom cfg ((S1 ++ E1).length - 1 - (i + 1)) (ofRows (S1 ++ E1) cache) with
            | error e => rw [hq] at hp'; cases hp'
            | ok q =>
              rw [hq] at hp'
              obtain ⟨S2, E2, c2, rfl, h1, h2, hc2⟩ := e2 q hq
              have hl2 : (S2 ++ E2).length = size + 1 := by rw [List.length_append, h1, h2, ← List.length_append, hlen, hL]
              rw [← Except.ok.inj hp']
              rcases List.eq_nil_or_concat E2 with rfl | ⟨E0, z, rfl⟩
              · rcases List.eq_nil_or_concat S2 with rfl | ⟨S0, z, rfl⟩
                · simp at hl2
                · refine ⟨S0 ++ [(z.1, some ⊥)], [], c2, by simp [ofRows], by simpa using hl2, ?_, by simp, hc2.cache⟩
                  intro r hr
                  rcases List.mem_append.1 hr with hr | hr
                  · exact hc2.good r (by simp [hr])
                  · rw [List.mem_singleton.1 hr]
                    exact hc2.good z (by simp)
              · refine ⟨S2, E0 ++ [(z.1, some ⊥)], c2, ?_, by simpa using hl2, hc2.good, ?_, hc2.cache⟩
                · simp [ofRows, List.set_append]
                · intro r hr
                  rcases List.mem_append.1 hr with hr | hr
                  · exact hc2.empty r (by simp [hr])
                  · rw [List.mem_singleton.1 hr]
          · exact ⟨rfl, fun p' hp' => by cases hp'⟩

theorem addMany_agree (h : Agree G cfg cfg') {size : ℕ} : ∀ (l : List (Cand P Y V)) (p : Pool P Y V), CleanPool G size p → (∀ c ∈ l, G (c.1, c.2.1)) →
    addMany cfg' p l = addMany cfg p l ∧ ∀ p', addMany cfg p l = .ok p' → CleanPool G size p'
  | [], p, hp, _ => ⟨rfl, fun p' hp' => Except.ok.inj hp' ▸ hp⟩
  | (x, y, s, a) :: l, p, hp, hl => by
    obtain ⟨e1, e2⟩ := addOne_agree h hp (s := s) (a := a) (hl _ List.mem_cons_self)
    unfold addMany
    rw [e1]
    cases hq : addOne cfg p x y s a with
    | error e => exact ⟨rfl, fun p' hp' => by cases hp'⟩
    | ok q => exact addMany_agree h l q (e2 q hq) fun c hc => hl c (List.mem_cons_of_mem _ hc)

theorem init_clean (G : P × Y → Prop) (x0 : P) (y0 : Y) (a0 : V) (size : ℕ) : CleanPool G size (Pool.init x0 y0 a0 size : Pool P Y V) := by
  refine ⟨[], List.replicate (size + 1) ((x0, y0, y0, some a0), some ⊥), List.replicate (size + 1) none, ?_, by simp, by simp, ?_, ?_⟩
  · simp [Pool.init, ofRows]
  · intro r hr; rw [(List.mem_replicate.1 hr).2]
  · intro l hl; cases (List.mem_replicate.1 hl).2

theorem rankAll_agree (h : Agree G cfg cfg') (x0 : P) (y0 : Y) (a0 : V) (size : ℕ) : ∀ (shares : List (List (Cand P Y V))),
    (∀ l ∈ shares, ∀ c ∈ l, G (c.1, c.2.1)) → rankAll cfg' x0 y0 a0 size shares = rankAll cfg x0 y0 a0 size shares ∧
      ∀ ps, rankAll cfg x0 y0 a0 size shares = .ok ps → ∀ p ∈ ps, CleanPool G size p
  | [], _ => ⟨rfl, fun ps hps => by rw [← Except.ok.inj hps]; simp⟩
  | l :: ls, hl => by
    obtain ⟨e1, e2⟩ := addMany_agree h l _ (init_clean G x0 y0 a0 size) (hl l List.mem_cons_self)
    obtain ⟨e3, e4⟩ := rankAll_agree h x0 y0 a0 size ls fun l' hl' => hl l' (List.mem_cons_of_mem _ hl')
    unfold rankAll
    rw [e1, e3]
    refine ⟨rfl, fun ps hps => ?_⟩
    cases hq : addMany cfg (Pool.init x0 y0 a0 size) l with
    | error e => rw [hq] at hps; cases hps
    | ok q =>
      rw [hq] at hps
      dsimp only at hps
      cases hr : rankAll cfg x0 y0 a0 size ls with
      | error e => rw [hr] at hps; cases hps
      | ok qs =>
        rw [hr] at hps
        rw [← Except.ok.inj hps]
        intro p hp
        rcases List.mem_cons.1 hp with rfl | hp
        · exact e2 _ hq
        · exact e4 qs hr p hp

theorem maskL_zip {α β : Type*} : ∀ (m : List Bool) (a : List α) (b : List β), (maskL m a).zip (maskL m b) = maskL m (a.zip b)
  | [], _, _ => by simp [maskL]
  | _ :: _, [], b => by simp [maskL]
  | true :: m, a :: as, [] => by simp [maskL]
  | false :: m, a :: as, [] => by simp [maskL]
  | true :: m, a :: as, b :: bs => by simp [maskL, maskL_zip m as bs]
  | false :: m, a :: as, b :: bs => by simp [maskL, maskL_zip m as bs]

/-- The points written so far are good; the other slots are empty. -/
def CleanTo (G : P × Y → Prop) (i : ℕ) (p : Pool P Y V) : Prop :=
  p.X.length = p.y.length ∧ p.acqCond.length = p.y.length ∧ (∀ q ∈ (p.X.zip p.y).take i, G q) ∧ ∀ c ∈ p.acqCond.drop i, c = some ⊥

theorem cacheModel_cleanTo {p : Pool P Y V} {i k : ℕ} (hp : CleanTo G i p) : CleanTo G i (p.cacheModel k) := by
  unfold Pool.cacheModel
  split
  · exact hp
  · exact hp

/-- One round of `add_bulk` keeps the pool clean. -/
theorem set_cleanTo {p : Pool P Y V} {i : ℕ} (hp : CleanTo G i p) (hi : i < p.y.length) {x : P} {y s : Y} (a : Option V) (c : Option V) (hx : G (x, y)) :
    CleanTo G (i + 1) { p with X := p.X.set i x, y := p.y.set i y, sigma := p.sigma.set i s, acq := p.acq.set i a, acqCond := p.acqCond.set i c } := by
  obtain ⟨h1, h2, h3, h4⟩ := hp
  refine ⟨by simpa using h1, by simpa using h2, ?_, ?_⟩
  · intro q hq
    dsimp only at hq
    obtain ⟨k, hk, rfl⟩ := List.mem_iff_getElem.1 hq
    simp only [List.length_take, List.length_zip, List.length_set] at hk
    simp only [List.getElem_take, List.getElem_zip, List.getElem_set]
    by_cases hki : i = k
    · simp only [hki, if_true]; exact hx
    · simp only [hki, if_false]
      apply h3
      rw [List.mem_iff_getElem]
      refine ⟨k, by simp only [List.length_take, List.length_zip]; omega, ?_⟩
      simp
  · intro v hv
    dsimp only at hv
    rw [List.drop_set_of_lt (by omega)] at hv
    apply h4
    rw [← List.drop_drop] at hv
    exact List.mem_of_mem_drop (by rwa [List.drop_drop, Nat.add_comm] at hv ⊢ : v ∈ (p.acqCond.drop i).drop 1)

theorem pre_cleanTo {p : Pool P Y V} {i : ℕ} (hp : CleanTo G i p) : ∀ q ∈ p.pre i, G q := hp.2.2.1

@[simp] theorem cacheModel_len (p : Pool P Y V) (k : ℕ) : (p.cacheModel k).len = p.len := by
  unfold Pool.cacheModel
  split <;> rfl

theorem cacheModel_y (p : Pool P Y V) (k : ℕ) : (p.cacheModel k).y = p.y := by
  unfold Pool.cacheModel
  split <;> rfl

theorem bulkFrom_agree (h : Agree G cfg cfg') : ∀ (n : ℕ) (X : List P) (y s : List Y) (a : List (Option V)) (p : Pool P Y V), n ≤ p.len - 1 → 1 ≤ p.len →
    CleanTo G (p.len - 1 - n) p → (∀ q ∈ X.zip y, G q) →
    bulkFrom cfg' X y s a n p = bulkFrom cfg X y s a n p ∧ ∃ m, CleanTo G m (bulkFrom cfg X y s a n p) := by
  intro n
  induction n with
  | zero =>
    intro X y s a p hn hlen hp hX
    unfold bulkFrom
    dsimp only
    generalize hi : p.len - 1 - 0 = i at hp
    have hp1 := cacheModel_cleanTo (k := i) hp
    have hac : (X.zip y).map (fun q => cfg'.cond ((p.cacheModel i).pre i) q.1 q.2) = (X.zip y).map fun q => cfg.cond ((p.cacheModel i).pre i) q.1 q.2 :=
      List.map_congr_left fun q hq => h.cond _ _ _ (pre_cleanTo hp1) (hX q hq)
    rw [hac]
    generalize (if i = 0 then a else (X.zip y).map fun q => cfg.cond ((p.cacheModel i).pre i) q.1 q.2) = ac
    refine ⟨rfl, ?_⟩
    split
    · rename_i xm ym sm am m hxm hym _ _ _
      split
      · exact ⟨i, hp1⟩
      · refine ⟨i + 1, set_cleanTo hp1 ?_ am m ?_⟩
        · rw [cacheModel_y]; unfold Pool.len at hi hlen; omega
        · exact hX _ (List.mem_of_getElem? (List.getElem?_zip_eq_some.2 ⟨hxm, hym⟩))
    · exact ⟨i, hp1⟩
  | succ n ih =>
    intro X y s a p hn hlen hp hX
    unfold bulkFrom
    dsimp only
    generalize hi : p.len - 1 - (n + 1) = i at hp
    have hp1 := cacheModel_cleanTo (k := i) hp
    have hac : (X.zip y).map (fun q => cfg'.cond ((p.cacheModel i).pre i) q.1 q.2) = (X.zip y).map fun q => cfg.cond ((p.cacheModel i).pre i) q.1 q.2 :=
      List.map_congr_left fun q hq => h.cond _ _ _ (pre_cleanTo hp1) (hX q hq)
    rw [hac]
    generalize (if i = 0 then a else (X.zip y).map fun q => cfg.cond ((p.cacheModel i).pre i) q.1 q.2) = ac
    split
    · rename_i xm ym sm am m hxm hym _ _ _
      split
      · exact ⟨rfl, i, hp1⟩
      · have hp2 := set_cleanTo (s := sm) hp1 (by rw [cacheModel_y]; unfold Pool.len at hi hlen; omega) am m
          (hX _ (List.mem_of_getElem? (List.getElem?_zip_eq_some.2 ⟨hxm, hym⟩)))
        have hl2 : ((p.cacheModel i).y.set i ym).length - 1 = p.len := by
          rw [List.length_set, cacheModel_y]; rfl
        refine ih _ _ _ _ _ ?_ ?_ ?_ ?_
        · unfold Pool.len
          dsimp only
          rw [hl2]; omega
        · unfold Pool.len
          dsimp only
          rw [hl2]; exact hlen
        · have : i + 1 = (⟨(p.cacheModel i).X.set i xm, (p.cacheModel i).y.set i ym, (p.cacheModel i).sigma.set i sm,
              (p.cacheModel i).acq.set i am, (p.cacheModel i).acqCond.set i m, (p.cacheModel i).cache⟩ : Pool P Y V).len - 1 - n := by
            unfold Pool.len
            dsimp only
            rw [hl2]; omega
          rw [← this]
          exact hp2
        · intro q hq
          rw [maskL_zip] at hq
          exact hX q ((maskL_sub _ _).subset hq)
    · exact ⟨rfl, i, hp1⟩

theorem cleanTo_init (G : P × Y → Prop) (x0 : P) (y0 : Y) (a0 : V) (size : ℕ) : CleanTo G 0 (Pool.init x0 y0 a0 size : Pool P Y V) := by
  refine ⟨by simp [Pool.init], by simp [Pool.init], by simp, fun c hc => ?_⟩
  simp only [Pool.init, List.drop_zero] at hc
  exact (List.mem_replicate.1 hc).2

theorem CleanPool.cleanTo {size : ℕ} {p : Pool P Y V} (hp : CleanPool G size p) : ∃ m, CleanTo G m p := by
  obtain ⟨S, E, cache, rfl, hL, hc⟩ := hp
  refine ⟨S.length, by simp [ofRows], by simp [ofRows], ?_, ?_⟩
  · exact pre_clean hc le_rfl
  · intro c hcm
    simp only [ofRows, ← List.map_drop, List.drop_left] at hcm
    obtain ⟨r, hr, rfl⟩ := List.mem_map.1 hcm
    exact hc.empty r hr

/-- A good point where the slot is not empty. -/
theorem CleanTo.good {p : Pool P Y V} {m : ℕ} (hp : CleanTo G m p) {k : ℕ} {x : P} {y : Y} {c : Option V} (hx : p.X[k]? = some x) (hy : p.y[k]? = some y)
    (hc : p.acqCond[k]? = some c) (hb : c ≠ some ⊥) : G (x, y) := by
  have hk : k < m := by
    by_contra hcon
    apply hb
    apply hp.2.2.2
    rw [List.mem_iff_getElem?]
    refine ⟨k - m, ?_⟩
    rw [List.getElem?_drop, Nat.add_sub_cancel' (by omega)]
    exact hc
  apply hp.2.2.1
  rw [List.mem_iff_getElem?]
  refine ⟨k, ?_⟩
  rw [List.getElem?_take_of_lt hk]
  exact List.getElem?_zip_eq_some.2 ⟨hx, hy⟩

theorem mem_maskL {α : Type*} : ∀ {m : List Bool} {l : List α} {q : α}, q ∈ maskL m l → ∃ k : ℕ, m[k]? = some true ∧ l[k]? = some q
  | [], _, q, h => by simp [maskL] at h
  | _ :: _, [], q, h => by simp [maskL] at h
  | true :: m, a :: l, q, h => by
    simp only [maskL, List.mem_cons] at h
    rcases h with rfl | h
    · exact ⟨0, rfl, rfl⟩
    · obtain ⟨k, h1, h2⟩ := mem_maskL h
      exact ⟨k + 1, h1, h2⟩
  | false :: m, a :: l, q, h => by
    simp only [maskL] at h
    obtain ⟨k, h1, h2⟩ := mem_maskL h
    exact ⟨k + 1, h1, h2⟩

theorem get_of_take {β : Type*} {l : List β} {b : β} {i k : ℕ} (hb : (l.take i)[k]? = some b) : k < i ∧ l[k]? = some b := by
  rw [List.getElem?_take] at hb
  split at hb
  · exact ⟨by assumption, hb⟩
  · cases hb

theorem flat_good {pools : List (Pool P Y V)} (hps : ∀ p ∈ pools, ∃ m, CleanTo G m p) :
    ∀ t ∈ (pools.flatMap fun p => p.acqCond.take p.len).zip ((pools.flatMap fun p => p.X.take p.len).zip (pools.flatMap fun p => p.y.take p.len)),
      t.1 ≠ some ⊥ → G t.2 := by
  induction pools with
  | nil => simp
  | cons p ps ih =>
    obtain ⟨m, hm⟩ := hps p List.mem_cons_self
    have h1 := hm.1
    have h2 := hm.2.1
    simp only [List.flatMap_cons]
    rw [List.zip_append (by simp [h1]), List.zip_append (by simp [h1, h2])]
    intro t ht hb
    rcases List.mem_append.1 ht with ht | ht
    · obtain ⟨k, hk⟩ := List.mem_iff_getElem?.1 ht
      obtain ⟨hc, hq⟩ := List.getElem?_zip_eq_some.1 hk
      obtain ⟨hx, hy⟩ := List.getElem?_zip_eq_some.1 hq
      exact hm.good (get_of_take hx).2 (get_of_take hy).2 (get_of_take hc).2 hb
    · exact ih (fun p hp => hps p (List.mem_cons_of_mem _ hp)) t ht hb

theorem mergePools_agree (h : Agree G cfg cfg') (x0 : P) (y0 : Y) (a0 : V) {size : ℕ} (hs : 1 ≤ size) {pools : List (Pool P Y V)}
    (hps : ∀ p ∈ pools, CleanPool G size p) :
    mergePools cfg' x0 y0 a0 size pools = mergePools cfg x0 y0 a0 size pools ∧ ∃ m, CleanTo G m (mergePools cfg x0 y0 a0 size pools) := by
  have hlen : (Pool.init x0 y0 a0 size : Pool P Y V).len = size := by simp [Pool.len, Pool.init]
  have key : ∀ s a, addBulk cfg' (Pool.init x0 y0 a0 size)
      (maskL ((pools.flatMap fun p => p.acqCond.take p.len).map isFin) (pools.flatMap fun p => p.X.take p.len))
      (maskL ((pools.flatMap fun p => p.acqCond.take p.len).map isFin) (pools.flatMap fun p => p.y.take p.len)) s a =
      addBulk cfg (Pool.init x0 y0 a0 size)
      (maskL ((pools.flatMap fun p => p.acqCond.take p.len).map isFin) (pools.flatMap fun p => p.X.take p.len))
      (maskL ((pools.flatMap fun p => p.acqCond.take p.len).map isFin) (pools.flatMap fun p => p.y.take p.len)) s a ∧
      ∃ m, CleanTo G m (addBulk cfg (Pool.init x0 y0 a0 size)
      (maskL ((pools.flatMap fun p => p.acqCond.take p.len).map isFin) (pools.flatMap fun p => p.X.take p.len))
      (maskL ((pools.flatMap fun p => p.acqCond.take p.len).map isFin) (pools.flatMap fun p => p.y.take p.len)) s a) := by
    intro s a
    unfold addBulk
    refine bulkFrom_agree h _ _ _ _ _ _ le_rfl (by rw [hlen]; exact hs) (by rw [Nat.sub_self]; exact cleanTo_init G x0 y0 a0 size) ?_
    intro q hq
    rw [maskL_zip] at hq
    obtain ⟨k, h1, h2⟩ := mem_maskL hq
    rw [List.getElem?_map] at h1
    cases hc : (pools.flatMap fun p => p.acqCond.take p.len)[k]? with
    | none => rw [hc] at h1; cases h1
    | some c =>
      rw [hc] at h1
      refine flat_good (fun p hp => (hps p hp).cleanTo) (c, q) ?_ ?_
      · exact List.mem_of_getElem? (List.getElem?_zip_eq_some.2 ⟨hc, h2⟩)
      · rintro rfl
        simp [isFin] at h1
  rcases pools with _ | ⟨p, _ | ⟨p', ps⟩⟩
  · exact key _ _
  · exact ⟨rfl, (hps p List.mem_cons_self).cleanTo⟩
  · exact key _ _

theorem bulkFrom_y (cfg : Cfg P Y V) : ∀ (n : ℕ) (X : List P) (y s : List Y) (a : List (Option V)) (p : Pool P Y V),
    (bulkFrom cfg X y s a n p).y.length = p.y.length := by
  intro n
  induction n with
  | zero =>
    intro X y s a p
    unfold bulkFrom
    dsimp only
    split
    · split
      · rw [cacheModel_y]
      · dsimp only
        rw [List.length_set, cacheModel_y]
    · rw [cacheModel_y]
  | succ n ih =>
    intro X y s a p
    unfold bulkFrom
    dsimp only
    split
    · split
      · rw [cacheModel_y]
      · rw [ih]
        dsimp only
        rw [List.length_set, cacheModel_y]
    · rw [cacheModel_y]

theorem mergePools_len (cfg : Cfg P Y V) (x0 : P) (y0 : Y) (a0 : V) {size : ℕ} {pools : List (Pool P Y V)} (hps : ∀ p ∈ pools, CleanPool G size p) :
    (mergePools cfg x0 y0 a0 size pools).len = size := by
  unfold mergePools
  split
  · obtain ⟨S, E, cache, rfl, hL, _⟩ := hps _ List.mem_cons_self
    rw [rows_len, hL]
    rfl
  · unfold Pool.len addBulk
    rw [bulkFrom_y]
    simp [Pool.init]

theorem result_lengths {p : Pool P Y V} {m : ℕ} (hp : CleanTo G m p) (n : ℕ) : (p.result n).1.length = (p.result n).2.length := by
  unfold Pool.result
  dsimp only
  split <;> simp [hp.1]

theorem result_good {p : Pool P Y V} {m n : ℕ} (hp : CleanTo G m p) (hn : n ≤ p.len) : ∀ q ∈ (p.result n).1.zip (p.result n).2, G q := by
  have hl1 := hp.1
  have hl2 := hp.2.1
  -- the slots up to the first empty one
  have key : ∀ k, k < (p.acqCond.take p.len).findIdx (fun c => decide (c = some ⊥)) → ∀ x y, p.X[k]? = some x → p.y[k]? = some y → G (x, y) := by
    intro k hk x y hx hy
    have h1 : k < (p.acqCond.take p.len).length := lt_of_lt_of_le hk List.findIdx_le_length
    have h2 := List.not_of_lt_findIdx hk
    have h3 : k < p.acqCond.length := by rw [List.length_take] at h1; omega
    simp only [List.getElem_take, decide_eq_false_iff_not] at h2
    exact hp.good hx hy (List.getElem?_eq_getElem h3) h2
  intro q hq
  unfold Pool.result at hq
  dsimp only at hq
  obtain ⟨k, hk⟩ := List.mem_iff_getElem?.1 hq
  obtain ⟨hx, hy⟩ := List.getElem?_zip_eq_some.1 hk
  split at hx
  · rename_i hi
    rw [if_pos hi] at hy
    obtain ⟨h1, h2⟩ := get_of_take (get_of_take hx).2
    exact key k h1 _ _ h2 (get_of_take (get_of_take hy).2).2
  · rename_i hi
    rw [if_neg hi] at hy
    obtain ⟨h1, h2⟩ := get_of_take hx
    exact key k (by omega) _ _ h2 (get_of_take hy).2

end Agree

/-! ## Both -/

section Follows
variable {cfg : Cfg P Y V} {cfg' : Cfg P' Y' V} {φ : P → P'} {ψ : Y → Y'}

/-- A candidate after a change: of the point, of the predicted value and of the standard deviation. -/
def changeCand (φ : P → P') (ψ χ : Y → Y') (c : Cand P Y V) : Cand P' Y' V := (φ c.1, ψ c.2.1, χ c.2.2.1, c.2.2.2)

/-- The ranking of changed candidates by the corresponding external functions: the same exception, or the changed result. What is in the empty
slots of the pools (`x0`, `y0`, `x0'`, `y0'`) does not need to correspond. -/
theorem rankAndMerge_follows (hcond : ∀ pre x y, cfg'.cond (pre.map (Prod.map φ ψ)) (φ x) (ψ y) = cfg.cond pre x y)
    (hargs : cfg'.argsortDesc = cfg.argsortDesc) (hperm : ∀ l, (cfg.argsortDesc l).Perm (List.range l.length)) (χ : Y → Y') (x0 : P) (y0 : Y) (x0' : P')
    (y0' : Y') (a0 : V) {size : ℕ} (hs : 1 ≤ size) (shares : List (List (Cand P Y V))) :
    (∃ e, rankAndMerge cfg x0 y0 a0 size shares = .error e ∧
      rankAndMerge cfg' x0' y0' a0 size (shares.map (List.map (changeCand φ ψ χ))) = .error e) ∨
    ∃ Q Q', rankAndMerge cfg x0 y0 a0 size shares = .ok Q ∧
      rankAndMerge cfg' x0' y0' a0 size (shares.map (List.map (changeCand φ ψ χ))) = .ok Q' ∧
      ∀ n ≤ size, Q'.result n = ((Q.result n).1.map φ, (Q.result n).2.map ψ) := by
  let c1 : Cfg (P × P') (Y × Y') V := ⟨fun pre x y => cfg.cond (pre.map (Prod.map Prod.fst Prod.fst)) x.1 y.1, cfg.argsortDesc⟩
  let c2 : Cfg (P × P') (Y × Y') V := ⟨fun pre x y => cfg'.cond (pre.map (Prod.map Prod.snd Prod.snd)) x.2 y.2, cfg.argsortDesc⟩
  let G : (P × P') × (Y × Y') → Prop := fun q => q.1.2 = φ q.1.1 ∧ q.2.2 = ψ q.2.1
  let hat : Cand P Y V → Cand (P × P') (Y × Y') V := fun c => ((c.1, φ c.1), (c.2.1, ψ c.2.1), (c.2.2.1, χ c.2.2.1), c.2.2.2)
  have s1 : Same Prod.fst Prod.fst c1 cfg := ⟨fun _ _ _ => rfl, rfl⟩
  have s2 : Same Prod.snd Prod.snd c2 cfg' := ⟨fun _ _ _ => rfl, hargs⟩
  have hag : Agree G c1 c2 := by
    refine ⟨fun pre x y hpre hx => ?_, rfl, hperm⟩
    show cfg'.cond (pre.map (Prod.map Prod.snd Prod.snd)) x.2 y.2 = cfg.cond (pre.map (Prod.map Prod.fst Prod.fst)) x.1 y.1
    rw [← hcond, List.map_map, hx.1, hx.2]
    congr 1
    apply List.map_congr_left
    intro q hq
    obtain ⟨h1, h2⟩ := hpre q hq
    exact Prod.ext h1 h2
  have e1 : shares = (shares.map (List.map hat)).map (List.map (mapCand Prod.fst Prod.fst)) := by
    rw [List.map_map]
    conv_lhs => rw [← List.map_id shares]
    apply List.map_congr_left
    intro l _
    simp only [Function.comp_apply, List.map_map, id]
    conv_lhs => rw [← List.map_id l]
    rfl
  have e2 : shares.map (List.map (changeCand φ ψ χ)) = (shares.map (List.map hat)).map (List.map (mapCand Prod.snd Prod.snd)) := by
    rw [List.map_map]
    apply List.map_congr_left
    intro l _
    simp only [Function.comp_apply, List.map_map]
    rfl
  have hgood : ∀ l ∈ shares.map (List.map hat), ∀ c ∈ l, G (c.1, c.2.1) := by
    intro l hl c hc
    obtain ⟨l', _, rfl⟩ := List.mem_map.1 hl
    obtain ⟨c', _, rfl⟩ := List.mem_map.1 hc
    exact ⟨rfl, rfl⟩
  obtain ⟨r1, r2⟩ := rankAll_agree hag (x0, x0') (y0, y0') a0 size _ hgood
  have q1 := rankAll_mapPool s1 (x0, x0') (y0, y0') a0 size (shares.map (List.map hat))
  have q2 := rankAll_mapPool s2 (x0, x0') (y0, y0') a0 size (shares.map (List.map hat))
  rw [← e1] at q1
  rw [← e2, r1] at q2
  unfold rankAndMerge
  dsimp only at q1 q2
  rw [q1, q2]
  cases hr : rankAll c1 (x0, x0') (y0, y0') a0 size (shares.map (List.map hat)) with
  | error e => exact .inl ⟨e, rfl, rfl⟩
  | ok ps =>
    right
    obtain ⟨m1, m, m2⟩ := mergePools_agree hag (x0, x0') (y0, y0') a0 hs (r2 ps hr)
    have t1 := mergePools_mapPool s1 (x0, x0') (y0, y0') a0 size ps
    have t2 := mergePools_mapPool s2 (x0, x0') (y0, y0') a0 size ps
    rw [m1] at t2
    refine ⟨_, _, rfl, rfl, fun n hn => ?_⟩
    dsimp only at t1 t2
    rw [t1, t2, result_mapPool, result_mapPool]
    have hg := result_good m2 (n := n) (by rw [mergePools_len c1 (x0, x0') (y0, y0') a0 (r2 ps hr)]; exact hn)
    have hl := result_lengths m2 n
    generalize (mergePools c1 (x0, x0') (y0, y0') a0 size ps).result n = R at hg hl
    obtain ⟨A, B⟩ := R
    dsimp only at hg hl ⊢
    rw [List.map_map, List.map_map]
    refine Prod.ext ?_ ?_
    · apply List.map_congr_left
      intro a ha
      obtain ⟨k, hk, rfl⟩ := List.mem_iff_getElem.1 ha
      exact (hg (A[k], B[k]'(by omega)) (List.mem_iff_getElem.2 ⟨k, by simp; omega, by simp⟩)).1
    · apply List.map_congr_left
      intro b hb
      obtain ⟨k, hk, rfl⟩ := List.mem_iff_getElem.1 hb
      exact (hg (A[k]'(by omega), B[k]) (List.mem_iff_getElem.2 ⟨k, by simp; omega, by simp⟩)).2

end Follows

end GPry.Ranked
