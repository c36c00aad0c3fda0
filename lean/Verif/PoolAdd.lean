import Verif.PoolLemmas
import Mathlib.Data.List.Induction

/-!
# `RankedPool.add_one` (proofs)
-/

set_option linter.all false

namespace GPry.Ranked

variable {P Y V : Type*} [LinearOrder V] [BoundedOrder V]

/-! ## Position in the list -/

theorem posFrom_le (cs : List (Option V)) (a : Option V) (n : ℕ) : posFrom cs a n ≤ n := by
  induction n with
  | zero => simp [posFrom]
  | succ n ih =>
    rw [posFrom]
    split
    · exact le_refl _
    · omega

theorem posFrom_ge (cs : List (Option V)) (a : Option V) (n : ℕ) :
    posFrom cs a n = 0 ∨ geV (cs.getD (posFrom cs a n - 1) none) a = true := by
  induction n with
  | zero => simp [posFrom]
  | succ n ih =>
    rw [posFrom]
    split
    · right; simpa using ‹_›
    · exact ih

theorem posFrom_lt (cs : List (Option V)) (a : Option V) (n j : ℕ) (h1 : posFrom cs a n ≤ j) (h2 : j < n) :
    geV (cs.getD j none) a = false := by
  induction n with
  | zero => omega
  | succ n ih =>
    rw [posFrom] at h1
    split at h1
    · omega
    · by_cases hj : j = n
      · subst hj; exact Bool.eq_false_iff.2 ‹_›
      · exact ih h1 (by omega)

theorem lt_posFrom (cs : List (Option V)) (a : Option V) (n j : ℕ) (h1 : j < n)
    (h2 : geV (cs.getD j none) a = true) : j < posFrom cs a n := by
  by_contra h
  rw [posFrom_lt cs a n j (by omega) h1] at h2
  exact absurd h2 (by simp)

theorem posFrom_antitone (cs : List (Option V)) {a b : Option V} (h : ltV b a = true) (n : ℕ) :
    posFrom cs a n ≤ posFrom cs b n := by
  rcases posFrom_ge cs a n with h0 | h0
  · omega
  · by_cases hz : posFrom cs a n = 0
    · omega
    · have := lt_posFrom cs b n (posFrom cs a n - 1) (by have := posFrom_le cs a n; omega) (by
        revert h h0
        generalize cs.getD (posFrom cs a n - 1) none = c
        cases a <;> cases b <;> cases c <;> simp [geV, ltV]
        intro h1 h2
        exact h1.le.trans h2)
      omega

/-- The loop of `add_one` finishes, whatever the conditioned acquisition values (including NaN) and the pool. -/
theorem search_terminates (cfg : Cfg P Y V) (p : Pool P Y V) (x : P) (y : Y) :
    ∀ (fuel : ℕ) (a : Option V) (last m : ℕ), (m = 0 ∨ m = last) → m ≤ posFrom p.acqCond a p.len →
      p.len + 2 ≤ fuel + m → search cfg p x y fuel a last ≠ .error .fuel := by
  intro fuel
  induction fuel with
  | zero =>
    intro a last m hm hle hf
    have := posFrom_le p.acqCond a p.len
    omega
  | succ fuel ih =>
    intro a last m hm hle hf
    rw [search]
    split
    · simp
    · rename_i hcon
      rw [not_or, not_or] at hcon
      split
      · simp
      · rename_i pre _
        apply ih _ _ (posFrom p.acqCond a p.len) (Or.inr rfl)
        · unfold pyMin2
          split
          · exact posFrom_antitone _ ‹_› _
          · exact le_refl _
        · omega

/-! ## Search in a sorted pool -/

theorem getD_slots (sl : List (Slot P Y V)) (cache) (j : ℕ) (hj : j < sl.length) :
    (ofSlots sl cache).acqCond.getD j none = some sl[j].2 := by
  simp [ofSlots, hj]

theorem desc_le {sl : List (Slot P Y V)} (h : Desc sl) {j k : ℕ} (hjk : j ≤ k) (hk : k < sl.length) :
    sl[k].2 ≤ (sl[j]'(by omega)).2 := by
  rcases hjk.eq_or_lt with rfl | hlt
  · exact le_refl _
  · exact List.pairwise_iff_getElem.1 h j k (by omega) hk hlt

theorem search_spec {cfg : Cfg P Y V} {f : List (P × Y) → P → Y → V}
    (hcond : cfg.cond = fun pre x y => some (f pre x y)) {size : ℕ} (sl : List (Slot P Y V)) (cache)
    (hlen : sl.length = size + 1) (hdesc : Desc sl) (hfresh : FreshTo size sl cache) (x : P) (y : Y) :
    ∀ (fuel : ℕ) (a : V) (last m : ℕ), (m = last ∨ (m = 0 ∧ last = size)) →
      m ≤ posFrom (ofSlots sl cache).acqCond (some a) size → size + 2 ≤ fuel + m →
      ∃ i a', search cfg (ofSlots sl cache) x y fuel (some a) last = .ok (i, some a') ∧
        i = posFrom (ofSlots sl cache).acqCond (some a') size ∧ m ≤ i ∧ a' ≤ a ∧
        (posFrom (ofSlots sl cache).acqCond (some a) size = 0 → i = 0 ∧ a' = a) ∧
        (posFrom (ofSlots sl cache).acqCond (some a) size ≠ 0 → i ≠ 0) ∧
        ((∀ pre x y, f pre x y ≠ ⊥) → a ≠ ⊥ → a' ≠ ⊥) ∧
        (Mono f → a = f (lies (sl.take m)) x y →
          (∀ k, k < m → ∀ t, sl[k]? = some t → f (lies (sl.take k)) x y ≤ t.2) → i < size →
          a' = f (lies (sl.take i)) x y ∧ ∀ k, k < i → ∀ t, sl[k]? = some t → f (lies (sl.take k)) x y ≤ t.2) := by
  intro fuel
  have hplen : (ofSlots sl cache).len = size := by simp [hlen]
  induction fuel with
  | zero =>
    intro a last m hm hle hf
    have := posFrom_le (ofSlots sl cache).acqCond (some a) size
    omega
  | succ fuel ih =>
    intro a last m hm hle hf
    rw [search]
    rw [hplen]
    obtain ⟨i, hi⟩ : ∃ i, i = posFrom (ofSlots sl cache).acqCond (some a) size := ⟨_, rfl⟩
    have hile : i ≤ size := hi ▸ posFrom_le _ _ _
    rw [← hi] at hle ⊢
    -- value just above
    have hge : i ≠ 0 → ∀ t, sl[i - 1]? = some t → a ≤ t.2 := by
      intro h0 t ht
      rcases posFrom_ge (ofSlots sl cache).acqCond (some a) size with h | h
      · exact absurd (hi.trans h) h0
      · rw [← hi] at h
        have hlt : i - 1 < sl.length := by omega
        rw [getD_slots _ _ _ hlt] at h
        rw [List.getElem?_eq_getElem hlt] at ht
        cases ht
        simpa [geV] using h
    have hmono' : Mono f → ∀ B C : List (Slot P Y V), f (lies (B ++ C)) x y ≤ f (lies B) x y := by
      intro hM B C
      induction C using List.reverseRecOn with
      | nil => simp
      | append_singleton C c ihC =>
        rw [← List.append_assoc, lies_append]
        exact (hM _ _ _ _).trans ihC
    have hmono2 : Mono f → ∀ j k, j ≤ k → f (lies (sl.take k)) x y ≤ f (lies (sl.take j)) x y := by
      intro hM j k hjk
      have : sl.take k = sl.take j ++ (sl.take k).drop j := by
        conv_lhs => rw [← List.take_append_drop j (sl.take k), List.take_take, min_eq_left hjk]
      rw [this]
      exact hmono' hM _ _
    -- entries between
    have hbetween : Mono f → a = f (lies (sl.take m)) x y →
        (∀ k, k < m → ∀ t, sl[k]? = some t → f (lies (sl.take k)) x y ≤ t.2) →
        ∀ k, k < i → ∀ t, sl[k]? = some t → f (lies (sl.take k)) x y ≤ t.2 := by
      intro hM ha hk k hki t ht
      by_cases hkm : k < m
      · exact hk k hkm t ht
      · have h1 := hmono2 hM m k (by omega)
        rw [← ha] at h1
        refine h1.trans ?_
        have hlt : i - 1 < sl.length := by omega
        refine (hge (by omega) _ (List.getElem?_eq_getElem hlt)).trans ?_
        have := desc_le hdesc (j := k) (k := i - 1) (by omega) hlt
        rw [List.getElem?_eq_getElem (by omega)] at ht
        cases ht
        exact this
    by_cases hstop : i = 0 ∨ i = last ∨ i = size
    · rw [if_pos hstop]
      refine ⟨i, a, rfl, hi, hle, le_refl _, fun h => ⟨h, rfl⟩, fun h => h, fun _ h => h, ?_⟩
      intro hM ha hk hisz
      refine ⟨?_, hbetween hM ha hk⟩
      have : i = m := by omega
      rw [this]; exact ha
    · rw [if_neg hstop]
      rw [not_or, not_or] at hstop
      have hlt1 : i - 1 < sl.length := by omega
      have hlt : i < sl.length := by omega
      have hbelow := posFrom_lt (ofSlots sl cache).acqCond (some a) size i (by omega) (by omega)
      rw [getD_slots _ _ _ hlt] at hbelow
      have ha0 : a ≠ ⊥ := by
        rintro rfl
        simp [geV] at hbelow
      have hne : sl[i - 1].2 ≠ ⊥ := by
        intro h
        have := hge hstop.1 _ (List.getElem?_eq_getElem hlt1)
        rw [h] at this
        exact ha0 (le_bot_iff.1 this)
      have hc := hfresh (i - 1) (by omega) _ (List.getElem?_eq_getElem hlt1) hne
      have : (ofSlots sl cache).cache = cache := rfl
      rw [this, hc]
      dsimp only
      have hi1 : i - 1 + 1 = i := by omega
      rw [hi1, hcond]
      dsimp only
      have hmin : pyMin2 (some a) (some (f (lies (sl.take i)) x y)) = some (min a (f (lies (sl.take i)) x y)) := by
        unfold pyMin2
        split
        · rename_i h
          simp [ltV] at h
          rw [min_eq_right h.le]
        · rename_i h
          simp [ltV] at h
          rw [min_eq_left h]
      rw [hmin]
      have hle' : i ≤ posFrom (ofSlots sl cache).acqCond (some (min a (f (lies (sl.take i)) x y))) size := by
        have := lt_posFrom (ofSlots sl cache).acqCond (some (min a (f (lies (sl.take i)) x y))) size (i - 1) (by omega)
          (by
            rw [getD_slots _ _ _ hlt1]
            simp only [geV, decide_eq_true_eq]
            exact (min_le_left _ _).trans (hge hstop.1 _ (List.getElem?_eq_getElem hlt1)))
        omega
      obtain ⟨i', a', hs, hi', hmi, haa, _, _, hnb, hrest⟩ := ih (min a (f (lies (sl.take i)) x y)) i i (Or.inl rfl)
        hle' (by omega)
      refine ⟨i', a', hs, hi', by omega, haa.trans (min_le_left _ _), fun h => absurd h hstop.1,
        fun _ => by omega, ?_, ?_⟩
      · intro hnb' _
        apply hnb hnb'
        intro h
        rcases min_choice a (f (lies (sl.take i)) x y) with h2 | h2
        · exact ha0 (h2 ▸ h)
        · exact hnb' _ _ _ (h2 ▸ h)
      · intro hM ha hk hisz
        apply hrest hM ?_ (hbetween hM ha hk) hisz
        rw [min_eq_right]
        rw [ha]
        exact hmono2 hM m i hle

/-! ## Adding one point -/

/-- Invariant of a pool of `size` slots plus a buffer slot. -/
structure PInv (size : ℕ) (S : List (Slot P Y V)) (b : Ent P Y V) (cache : List (Option (List (P × Y)))) : Prop where
  len : S.length = size
  desc : Desc S
  clen : cache.length = size + 1
  fresh : FreshTo size (S ++ [(b, ⊥)]) cache

theorem ranking_replace {f : List (P × Y) → P → Y → V} (B B' : List (Slot P Y V)) :
    ∀ (A : List (Slot P Y V)) (pre : List (P × Y)), Ranking f pre (A ++ B) → (∀ t ∈ A, t.2 ≠ ⊥) →
      (∀ e ∈ occ B', e ∈ occ B ∨ ∀ k, k < A.length → ∀ t, A[k]? = some t →
        f (pre ++ lies (A.take k)) e.x e.y ≤ t.2) →
      Ranking f (pre ++ lies A) B' → Ranking f pre (A ++ B') := by
  intro A
  induction A with
  | nil => intro pre _ _ _ h; simpa [lies] using h
  | cons t A ih =>
    intro pre hr hne he hB
    have ht := hne t List.mem_cons_self
    rcases hr with h | ⟨h1, h2, h3⟩
    · exact absurd h ht
    · right
      refine ⟨h1, ?_, ?_⟩
      · intro e hoc
        have hoc' : e ∈ occ (A ++ B') := hoc
        have h2 : ∀ e ∈ occ (A ++ B), f pre e.x e.y ≤ t.2 := h2
        rw [occ_append] at hoc' h2
        replace hoc := hoc'
        rcases List.mem_append.1 hoc with h | h
        · exact h2 e (List.mem_append_left _ h)
        · rcases he e h with h' | h'
          · exact h2 e (List.mem_append_right _ h')
          · simpa [lies] using h' 0 (by simp) t rfl
      · apply ih _ h3 (fun t ht => hne t (List.mem_cons_of_mem _ ht))
        · intro e hoc
          rcases he e hoc with h' | h'
          · exact Or.inl h'
          · right
            intro k hk t' ht'
            have := h' (k + 1) (by simpa using hk) t' (by simpa using ht')
            simpa [lies, List.take_succ_cons] using this
        · simpa [lies] using hB

theorem ranking_head_dom {f : List (P × Y) → P → Y → V} {pre : List (P × Y)} {t : Slot P Y V}
    {B : List (Slot P Y V)} (hd : Desc (t :: B)) (h : Ranking f pre (t :: B)) :
    ∀ e ∈ occ (t :: B), f pre e.x e.y ≤ t.2 := by
  rcases h with h | ⟨h1, h2, _⟩
  · intro e he
    rw [occ_empty] at he
    · simp at he
    · intro t' ht'
      rcases List.mem_cons.1 ht' with rfl | ht'
      · exact h
      · have := (List.pairwise_cons.1 hd).1 t' ht'
        rw [h] at this
        exact le_bot_iff.1 this
  · intro e he
    rw [occ_cons] at he
    split at he
    · exact h2 e he
    · rcases List.mem_cons.1 he with rfl | he
      · rw [h1]
      · exact h2 e he

theorem ranking_suffix {f : List (P × Y) → P → Y → V} (B : List (Slot P Y V)) :
    ∀ (A : List (Slot P Y V)) (pre : List (P × Y)), Ranking f pre (A ++ B) → (∀ t ∈ A, t.2 ≠ ⊥) →
      Ranking f (pre ++ lies A) B := by
  intro A
  induction A with
  | nil => intro pre h _; simpa [lies] using h
  | cons t A ih =>
    intro pre h hne
    rcases h with h | ⟨_, _, h3⟩
    · exact absurd h (hne t List.mem_cons_self)
    · have := ih _ h3 (fun t ht => hne t (List.mem_cons_of_mem _ ht))
      simpa [lies] using this

theorem addOne_spec {cfg : Cfg P Y V} {f : List (P × Y) → P → Y → V}
    (hcond : cfg.cond = fun pre x y => some (f pre x y)) (hsort : SortsDesc cfg.argsortDesc) {size : ℕ}
    (hsize : 1 ≤ size) (S : List (Slot P Y V)) (b : Ent P Y V) (cache) (hinv : PInv size S b cache) (e : Ent P Y V) :
    ∃ S' b' cache', addOne cfg (ofSlots (S ++ [(b, ⊥)]) cache) e.x e.y e.s (some e.a) =
        .ok (ofSlots (S' ++ [(b', ⊥)]) cache') ∧ PInv size S' b' cache' ∧
      (occ S').Subperm (e :: occ S) ∧
      (∃ t t', S.head? = some t ∧ S'.head? = some t' ∧
        ((e.a ≤ t.2 ∧ t' = t) ∨ (t.2 < e.a ∧ t' = (e, e.a)))) ∧
      ((∀ pre x y, f pre x y ≠ ⊥) → e.a ≠ ⊥ → (occ S).length < size → (occ S').Perm (e :: occ S)) ∧
      (Mono f → e.a = f [] e.x e.y → Ranking f [] S → Ranking f [] S') := by
  obtain ⟨hSlen, hdesc, hcl, hfresh⟩ := hinv
  set sl := S ++ [(b, (⊥ : V))] with hsl
  have hlen : sl.length = size + 1 := by simp [hsl, hSlen]
  have hdescsl : Desc sl := List.pairwise_append.2 ⟨hdesc, List.pairwise_singleton _ _, by
    intro a _ c hc; simp at hc; rw [hc]; exact bot_le⟩
  have hplen : (ofSlots sl cache).len = size := by simp [hlen]
  obtain ⟨t0, S0, rfl⟩ : ∃ t S0, S = t :: S0 := by
    cases S with
    | nil => simp at hSlen; omega
    | cons t S0 => exact ⟨t, S0, rfl⟩
  have hgetS : ∀ j (hj : j < size), (sl[j]'(by omega)) = (t0 :: S0)[j]'(by omega) := by
    intro j hj
    simp only [hsl]
    rw [List.getElem_append_left]
  have hmin : (ofSlots sl cache).minAcq = some (sl[size - 1]'(by omega)).2 := by
    unfold Pool.minAcq
    rw [hplen, if_neg (by omega), getD_slots _ _ _ (by omega)]
  have hsl0 : sl[0]'(by omega) = t0 := by simp [hsl]
  rw [addOne, hmin]
  by_cases hsmall : e.a ≤ (sl[size - 1]'(by omega)).2
  · rw [if_pos (by simpa [leV, geV] using hsmall)]
    refine ⟨t0 :: S0, b, cache, rfl, ⟨hSlen, hdesc, hcl, hfresh⟩, (List.sublist_cons_self _ _).subperm,
      ⟨t0, t0, rfl, rfl, Or.inl ⟨?_, rfl⟩⟩, ?_, fun _ _ h => h⟩
    · have := desc_le hdescsl (j := 0) (k := size - 1) (by omega) (by omega)
      rw [hsl0] at this
      exact hsmall.trans this
    · intro _ hne hlt
      exfalso
      -- the last slot is occupied, so the pool is full
      have hfull : ∀ t ∈ t0 :: S0, t.2 ≠ ⊥ := by
        intro t ht h0
        obtain ⟨k, hk, rfl⟩ := List.getElem_of_mem ht
        have := desc_le hdescsl (j := k) (k := size - 1) (by omega) (by omega)
        rw [hgetS k (by omega), h0] at this
        exact hne (le_bot_iff.1 (hsmall.trans this))
      rw [occ_full hfull, List.length_map, hSlen] at hlt
      exact lt_irrefl _ hlt
  rw [if_neg (by simpa [leV, geV] using hsmall)]
  rw [not_le] at hsmall
  dsimp only
  rw [hplen]
  obtain ⟨i, a', hs, hi, _, haa, hz, hnz, hnb, hrank⟩ := search_spec hcond (size := size) sl cache hlen hdescsl hfresh
    e.x e.y (size + 2) e.a size 0 (Or.inr ⟨rfl, rfl⟩) (Nat.zero_le _) (by omega)
  rw [hs]
  dsimp only
  have hile : i ≤ size := hi ▸ posFrom_le _ _ _
  have hpos0 : posFrom (ofSlots sl cache).acqCond (some e.a) size ≠ 0 → e.a ≤ t0.2 := by
    intro h
    rcases posFrom_ge (ofSlots sl cache).acqCond (some e.a) size with h' | h'
    · exact absurd h' h
    · have hle := posFrom_le (ofSlots sl cache).acqCond (some e.a) size
      rw [getD_slots _ _ _ (by omega)] at h'
      simp only [geV, decide_eq_true_eq] at h'
      have := desc_le hdescsl (j := 0) (k := posFrom (ofSlots sl cache).acqCond (some e.a) size - 1) (by omega) (by omega)
      rw [hsl0] at this
      exact h'.trans this
  have hpos0' : posFrom (ofSlots sl cache).acqCond (some e.a) size = 0 → t0.2 < e.a := by
    intro h
    have := posFrom_lt (ofSlots sl cache).acqCond (some e.a) size 0 (by omega) (by omega)
    rw [getD_slots _ _ _ (by omega), hsl0] at this
    simpa [geV] using this
  by_cases hdisc : size ≤ i
  · rw [if_pos hdisc]
    have hi0 : i ≠ 0 := by omega
    have hp : posFrom (ofSlots sl cache).acqCond (some e.a) size ≠ 0 := fun h => hi0 (hz h).1
    refine ⟨t0 :: S0, b, cache, rfl, ⟨hSlen, hdesc, hcl, hfresh⟩, (List.sublist_cons_self _ _).subperm,
      ⟨t0, t0, rfl, rfl, Or.inl ⟨hpos0 hp, rfl⟩⟩, ?_, fun _ _ h => h⟩
    intro hnb' hne hlt
    exfalso
    have ha' := hnb hnb' hne
    have hisz : i = size := le_antisymm hile hdisc
    rcases posFrom_ge (ofSlots sl cache).acqCond (some a') size with h' | h'
    · omega
    · rw [← hi, hisz, getD_slots _ _ _ (by omega)] at h'
      simp only [geV, decide_eq_true_eq] at h'
      have hfull : ∀ t ∈ t0 :: S0, t.2 ≠ ⊥ := by
        intro t ht h0
        obtain ⟨k, hk, rfl⟩ := List.getElem_of_mem ht
        have := desc_le hdescsl (j := k) (k := size - 1) (by omega) (by omega)
        rw [hgetS k (by omega), h0] at this
        exact ha' (le_bot_iff.1 (h'.trans this))
      rw [occ_full hfull, List.length_map, hSlen] at hlt
      exact lt_irrefl _ hlt
  rw [if_neg hdisc]
  rw [not_le] at hdisc
  obtain ⟨A, hA⟩ : ∃ A, A = (t0 :: S0).take i := ⟨_, rfl⟩
  obtain ⟨B, hB⟩ : ∃ B, B = (t0 :: S0).drop i := ⟨_, rfl⟩
  have hAB : t0 :: S0 = A ++ B := by rw [hA, hB, List.take_append_drop]
  have hAlen : A.length = i := by rw [hA, List.length_take]; omega
  have hBlen : B.length = size - i := by rw [hB, List.length_drop]; omega
  have hslAB : sl = A ++ (B ++ [(b, ⊥)]) := by rw [hsl, hAB, List.append_assoc]
  have htakesl : ∀ k, k ≤ i → sl.take k = A.take k := by
    intro k hk
    rw [hslAB, List.take_append_of_le_length (by omega)]
  -- values around the new point
  have hbelow : ∀ t ∈ B, t.2 < a' := by
    intro t ht
    obtain ⟨k, hk, rfl⟩ := List.getElem_of_mem ht
    have := posFrom_lt (ofSlots sl cache).acqCond (some a') size (i + k) (by omega) (by omega)
    rw [getD_slots _ _ _ (by omega)] at this
    simp only [geV, decide_eq_false_iff_not, not_le] at this
    have h2 : sl[i + k]'(by omega) = B[k] := by
      have h3 : sl[i + k]? = B[k]? := by
        rw [hslAB, List.getElem?_append_right (by omega), hAlen, Nat.add_sub_cancel_left,
          List.getElem?_append_left (by omega)]
      rw [List.getElem?_eq_getElem (by omega), List.getElem?_eq_getElem hk] at h3
      exact Option.some.inj h3
    rw [h2] at this
    exact this
  have habove : ∀ t ∈ A, a' ≤ t.2 := by
    intro t ht
    obtain ⟨k, hk, rfl⟩ := List.getElem_of_mem ht
    rcases posFrom_ge (ofSlots sl cache).acqCond (some a') size with h' | h'
    · rw [← hi] at h'; omega
    · rw [← hi, getD_slots _ _ _ (by omega)] at h'
      simp only [geV, decide_eq_true_eq] at h'
      have := desc_le hdescsl (j := k) (k := i - 1) (by omega) (by omega)
      have h2 : sl[k]'(by omega) = A[k] := by
        have h3 : sl[k]? = A[k]? := by rw [hslAB, List.getElem?_append_left hk]
        rw [List.getElem?_eq_getElem (by omega), List.getElem?_eq_getElem hk] at h3
        exact Option.some.inj h3
      rw [h2] at this
      exact h'.trans this
  have hBne : B ≠ [] := by
    intro h; rw [h] at hBlen; simp at hBlen; omega
  have ha'ne : a' ≠ ⊥ := by
    obtain ⟨t, B2, hB2⟩ := List.exists_cons_of_ne_nil hBne
    have := hbelow t (hB2 ▸ List.mem_cons_self)
    exact (bot_le.trans_lt this).ne'
  have hAne : ∀ t ∈ A, t.2 ≠ ⊥ := by
    intro t ht h0
    have := habove t ht
    rw [h0] at this
    exact ha'ne (le_bot_iff.1 this)
  -- the pool after the insertion
  have hpool : ({ ofSlots sl cache with
      X := shift (ofSlots sl cache).X i e.x, y := shift (ofSlots sl cache).y i e.y,
      sigma := shift (ofSlots sl cache).sigma i e.s, acq := shift (ofSlots sl cache).acq i (some e.a),
      acqCond := shift (ofSlots sl cache).acqCond i (some a') } : Pool P Y V) =
      ofSlots (A ++ [(e, a')] ++ B) cache := by
    have g1 := shift_map (fun t : Slot P Y V => t.1.x) sl i (e, a')
    have g2 := shift_map (fun t : Slot P Y V => t.1.y) sl i (e, a')
    have g3 := shift_map (fun t : Slot P Y V => t.1.s) sl i (e, a')
    have g4 := shift_map (fun t : Slot P Y V => some t.1.a) sl i (e, a')
    have g5 := shift_map (fun t : Slot P Y V => some t.2) sl i (e, a')
    have hsh : shift sl i (e, a') = A ++ [(e, a')] ++ B := by
      rw [hslAB, shift]
      simp [← hAlen]
    rw [hsh] at g1 g2 g3 g4 g5
    simp only [ofSlots]
    congr 1
  rw [hpool, if_pos (by simp [ltV, bot_lt_iff_ne_bot, ha'ne])]
  have hlenN : (A ++ [(e, a')] ++ B).length = size + 1 := by simp [hAlen, hBlen]; omega
  rw [sort, len_ofSlots, hlenN]
  have hdescN : Desc (A ++ [(e, a')] ++ B) := by
    rw [hAB] at hdesc
    have := List.pairwise_append.1 hdesc
    refine List.pairwise_append.2 ⟨List.pairwise_append.2 ⟨this.1, List.pairwise_singleton _ _, ?_⟩, this.2.1, ?_⟩
    · intro t ht c hc; simp at hc; rw [hc]; exact habove t ht
    · intro t ht c hc
      rcases List.mem_append.1 ht with h | h
      · exact this.2.2 t h c hc
      · simp at h; rw [h]; exact (hbelow c hc).le
  obtain ⟨D', cache', hrun, hDl, hd', hc', hf', hs', hp', hrk⟩ := sortFrom_spec hcond hsort (size := size)
    (size + 1 - 1 - (i + 1)) A B cache (e, a') (by simp [hAlen]; omega) hlenN
    (by
      intro t ht
      rcases List.mem_append.1 ht with h | h
      · exact hAne t h
      · simp at h; rw [h]; exact ha'ne) hdescN hcl
    (by
      intro j hj t ht htne
      have hj' : j < i := by simp [hAlen] at hj; omega
      rw [List.append_assoc, List.getElem?_append_left (by omega)] at ht
      have := hfresh j (by omega) t (by rw [hslAB, List.getElem?_append_left (by omega)]; exact ht) htne
      rw [this, htakesl _ (by omega), List.append_assoc, List.take_append_of_le_length (by omega)])
  rw [hrun]
  dsimp only
  obtain ⟨D2, d, hD2⟩ : ∃ D2 d, D' = D2 ++ [d] := by
    have : D' ≠ [] := by intro h; rw [h] at hDl; simp at hDl; omega
    exact ⟨D'.dropLast, D'.getLast this, (List.dropLast_append_getLast this).symm⟩
  have hfin : ({ ofSlots (A ++ [(e, a')] ++ D') cache' with
      acqCond := (ofSlots (A ++ [(e, a')] ++ D') cache').acqCond.set
        ((ofSlots (A ++ [(e, a')] ++ D') cache').acqCond.length - 1) (some ⊥) } : Pool P Y V) =
      ofSlots (A ++ (e, a') :: D2 ++ [(d.1, ⊥)]) cache' := by
    rw [hD2]
    have e1 : A ++ [(e, a')] ++ (D2 ++ [d]) = (A ++ (e, a') :: D2) ++ [d] := by simp
    rw [e1]
    simp only [ofSlots]
    congr 1
    · simp
    · simp
    · simp
    · simp
    · rw [List.map_append, List.length_append]
      simp only [List.map_cons, List.map_nil, List.length_cons, List.length_nil, Nat.zero_add, Nat.add_sub_cancel]
      rw [List.set_append_right _ _ (le_refl _)]
      simp
  refine ⟨A ++ (e, a') :: D2, d.1, cache', ?_, ⟨?_, ?_, hc', ?_⟩, ?_, ?_, ?_, ?_⟩
  · rw [← hfin]
  · rw [hD2] at hDl; simp [hAlen] at hDl ⊢; omega
  · rw [hD2] at hd'
    have e1 : A ++ [(e, a')] ++ (D2 ++ [d]) = (A ++ (e, a') :: D2) ++ [d] := by simp
    rw [e1] at hd'
    exact (List.pairwise_append.1 hd').1
  · intro j hj t ht htne
    rw [hD2] at hf' hDl
    have e1 : A ++ [(e, a')] ++ (D2 ++ [d]) = (A ++ (e, a') :: D2) ++ [d] := by simp
    rw [e1] at hf'
    have hl : (A ++ (e, a') :: D2).length = size := by simp [hAlen] at hDl ⊢; omega
    rw [List.getElem?_append_left (by omega)] at ht
    have := hf' j hj t (by rw [List.getElem?_append_left (by omega)]; exact ht) htne
    rw [this, List.take_append_of_le_length (l₁ := A ++ (e, a') :: D2) (by omega),
      List.take_append_of_le_length (l₁ := A ++ (e, a') :: D2) (by omega)]
  · have h2 : (occ D2).Subperm (occ B) := by
      refine List.Subperm.trans ?_ hs'
      rw [hD2, occ_append]
      exact (List.sublist_append_left _ _).subperm
    rw [hAB, occ_append, occ_append, occ_cons, if_neg ha'ne]
    refine (List.perm_middle.subperm).trans ?_
    refine (List.subperm_cons _).2 ?_
    exact (List.subperm_append_left _).2 h2
  · refine ⟨t0, (A ++ (e, a') :: D2).head (by simp), rfl, List.head?_eq_some_head _, ?_⟩
    by_cases hi0 : i = 0
    · have hp : posFrom (ofSlots sl cache).acqCond (some e.a) size = 0 := by
        by_contra h; exact hnz h hi0
      right
      refine ⟨hpos0' hp, ?_⟩
      have : A = [] := List.length_eq_zero_iff.1 (hAlen.trans hi0)
      simp [this, (hz hp).2]
    · left
      have hp : posFrom (ofSlots sl cache).acqCond (some e.a) size ≠ 0 := fun h => hi0 (hz h).1
      refine ⟨hpos0 hp, ?_⟩
      have h1 : A = t0 :: A.tail := by
        cases hA' : A with
        | nil => rw [hA'] at hAlen; simp at hAlen; omega
        | cons a0 A0 => rw [hA'] at hAB; simp at hAB; simp [hAB.1]
      rw [h1]; rfl
  · intro hnb' hne hlt
    have hDp := hp' hnb'
    have hlenocc : (occ D').length = (occ B).length := hDp.length_eq
    have hdbot : d.2 = ⊥ := by
      by_contra hdne
      have hD'full : ∀ t ∈ D', t.2 ≠ ⊥ := by
        intro t ht h0
        rw [hD2] at ht
        rcases List.mem_append.1 ht with h | h
        · have hdd := (List.pairwise_append.1 hd').2.1
          rw [hD2] at hdd
          have := (List.pairwise_append.1 hdd).2.2 t h d (by simp)
          rw [h0] at this
          exact hdne (le_bot_iff.1 this)
        · simp at h; exact hdne (h ▸ h0)
      rw [occ_full hD'full, List.length_map] at hlenocc
      rw [hAB, occ_append, List.length_append, ← hlenocc, occ_full hAne, List.length_map] at hlt
      omega
    have : occ D' = occ D2 := by
      rw [hD2, occ_append, occ_empty (A := [d]) (by simpa using hdbot), List.append_nil]
    rw [this] at hDp
    rw [hAB, occ_append, occ_append, occ_cons, if_neg ha'ne]
    refine List.perm_middle.trans ?_
    exact (List.Perm.append_left _ hDp).cons _
  · intro hM hea hR
    obtain ⟨ha', hk⟩ := hrank hM (by simpa [lies] using hea) (by intro k hk; omega) hdisc
    rw [htakesl i (le_refl _), List.take_of_length_le (by omega)] at ha'
    rw [hAB] at hR hdesc
    have hRB := ranking_suffix B A [] hR hAne
    rw [List.nil_append] at hRB
    have hdomB : ∀ e' ∈ occ B, f (lies A) e'.x e'.y ≤ a' := by
      obtain ⟨t, B2, hB2⟩ := List.exists_cons_of_ne_nil hBne
      intro e' he'
      have hdB := (List.pairwise_append.1 hdesc).2.1
      have hlt := hbelow t (hB2 ▸ List.mem_cons_self)
      rw [hB2] at he' hRB hdB
      exact (ranking_head_dom hdB hRB e' he').trans hlt.le
    have hrk' := hrk hM (by
      intro e' he'
      rw [lies_append]
      exact (hM _ _ _ _).trans (hdomB e' he'))
    have hdl : D'.dropLast = D2 := by rw [hD2]; simp
    rw [hdl, lies_append] at hrk'
    have hsubD : ∀ e' ∈ occ D2, e' ∈ occ B := by
      intro e' he'
      apply hs'.subset
      rw [hD2, occ_append]
      exact List.mem_append_left _ he'
    apply ranking_replace B _ A [] hR hAne
    · intro e' he'
      rw [occ_cons, if_neg ha'ne] at he'
      rcases List.mem_cons.1 he' with rfl | he'
      · right
        intro k hk1 t ht
        have := hk k (by omega) t (by rw [hslAB, List.getElem?_append_left hk1]; exact ht)
        rwa [htakesl k (by omega)] at this
      · exact Or.inl (hsubD e' he')
    · rw [List.nil_append]
      right
      exact ⟨ha', fun e' he' => hdomB e' (hsubD e' he'), hrk'⟩

end GPry.Ranked
