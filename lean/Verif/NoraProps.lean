import Verif.Nora
import Verif.CopyProps

set_option linter.all false

/-! # NORA: removal of proposed points, schedule, reweighting (C29, C30, C31, C62) -/

namespace GPry.Nora

/-! ## C29 -/

section Removal
variable {A : Type*} [DecidableEq A]

theorem isinRow_iff (r x : List A) : isinRow r x = true ↔ ∀ c ∈ r, c ∈ x := by simp [isinRow]

theorem isinRow_self (r : List A) : isinRow r r = true := by simp [isinRow]

theorem deleteIdx_filter {B : Type*} (l : List B) (idx : List ℕ) (p : B → Bool)
    (h : ∀ (j : ℕ) (hj : j < l.length), j ∈ idx ↔ p l[j] = false) : deleteIdx l idx = l.filter p := by
  unfold deleteIdx
  have h1 : (l.zipIdx.filter fun q => decide (q.2 ∉ idx)) = l.zipIdx.filter (p ∘ Prod.fst) := by
    apply List.filter_congr
    rintro ⟨b, j⟩ hq
    obtain ⟨_, hj, hb⟩ := List.mem_zipIdx hq
    simp at hj hb
    have := h j (by omega)
    simp only [Function.comp, hb]
    by_cases hp : p l[j] = true
    · have : j ∉ idx := fun hi => by rw [this.1 hi] at hp; exact absurd hp (by simp)
      simp [hp, this]
    · have : j ∈ idx := this.2 (by simpa using hp)
      simp [this]; simpa using hp
  rw [h1, ← List.filter_map, List.zipIdx_map_fst]

theorem deleteIdx_map {B C : Type*} (f : B → C) (l : List B) (idx : List ℕ) : deleteIdx (l.map f) idx = (deleteIdx l idx).map f := by
  unfold deleteIdx
  rw [List.zipIdx_map, List.filter_map, List.map_map, List.map_map]
  rfl

/-- No row of the sample is made of the coordinates of a different row. -/
def Generic (X : List (List A)) : Prop := ∀ r ∈ X, ∀ x ∈ X, (∀ c ∈ r, c ∈ x) → r = x

theorem mem_excluded (X proposed : List (List A)) (hnd : X.Nodup) (hg : ∀ r ∈ X, ∀ x ∈ proposed, (∀ c ∈ r, c ∈ x) → r = x)
    (j : ℕ) (hj : j < X.length) : j ∈ excluded X proposed ↔ X[j] ∈ proposed := by
  unfold excluded firstMatch
  rw [List.mem_filterMap]
  constructor
  · rintro ⟨x, hx, hf⟩
    rw [List.findIdx?_eq_some_iff_getElem] at hf
    obtain ⟨hl, hp, _⟩ := hf
    rw [hg X[j] (List.getElem_mem _) x hx ((isinRow_iff _ _).1 hp)]
    exact hx
  · intro hx
    refine ⟨X[j], hx, ?_⟩
    rw [List.findIdx?_eq_some_iff_getElem]
    refine ⟨hj, isinRow_self _, ?_⟩
    intro k hk
    rw [Bool.not_eq_true]
    by_contra hne
    have := hg X[k] (List.getElem_mem _) X[j] hx ((isinRow_iff _ _).1 (by simpa using hne))
    have := (List.Nodup.getElem_inj_iff hnd).1 this
    omega

/-- **C29** (partial: no row of the sample is made of coordinates of another proposed point, no repeated rows): the candidates
are exactly the points of the sample not yet proposed, in the same order, and the arrays of values stay aligned. -/
theorem C29_candidates_partial (X proposed : List (List A)) (hnd : X.Nodup)
    (hg : ∀ r ∈ X, ∀ x ∈ proposed, (∀ c ∈ r, c ∈ x) → r = x) {B : Type*} (f : List A → B) :
    candidates X proposed X = X.filter (fun r => decide (r ∉ proposed)) ∧
    candidates X proposed (X.map f) = (X.filter fun r => decide (r ∉ proposed)).map f := by
  have h : candidates X proposed X = X.filter (fun r => decide (r ∉ proposed)) := by
    unfold candidates
    split
    · rename_i h0
      have : proposed = [] := List.length_eq_zero_iff.1 h0
      simp [this]
    · apply deleteIdx_filter
      intro j hj
      rw [mem_excluded X proposed hnd hg j hj]
      simp
  refine ⟨h, ?_⟩
  rw [← h]
  unfold candidates
  split
  · rfl
  · exact deleteIdx_map f X _

example : candidates [[1, 2], [3, 4], [5, 6]] [[3, 4]] [[1, 2], [3, 4], [5, 6]] = [[1, 2], [5, 6]] :=
  (C29_candidates_partial [[1, 2], [3, 4], [5, 6]] [[3, 4]] (by decide) (by decide) id).1

/-- **C29** in one dimension, for every sample without repeated points. -/
theorem C29_one_dim (X proposed : List A) (hnd : X.Nodup) :
    candidates (X.map fun c => [c]) (proposed.map fun c => [c]) X = X.filter (fun c => decide (c ∉ proposed)) := by
  have hnd' : (X.map fun c => [c]).Nodup := hnd.map fun a b h => by simpa using h
  have hg : ∀ r ∈ (X.map fun c => [c]), ∀ x ∈ (proposed.map fun c => [c]), (∀ c ∈ r, c ∈ x) → r = x := by
    intro r hr x hx h
    obtain ⟨a, _, rfl⟩ := List.mem_map.1 hr
    obtain ⟨b, _, rfl⟩ := List.mem_map.1 hx
    simpa using h
  unfold candidates
  split
  · rename_i h0
    have : proposed = [] := by simpa using h0
    simp [this]
  · apply deleteIdx_filter
    intro j hj
    have := mem_excluded _ _ hnd' hg j (by simpa using hj)
    rw [this]
    simp

example : candidates [[1], [2], [3]] [[3], [1]] [1, 2, 3] = [2] := C29_one_dim [1, 2, 3] [3, 1] (by decide)

/-- **C29** is false in two or more dimensions: `(1, 2)` has been proposed, it stays a candidate and `(2, 1)`, never proposed, is
discarded; also `(1, 1)` is discarded if it comes first. -/
theorem C29_swapped_counterexample :
    candidates [[2, 1], [1, 2], [3, 4]] [[1, 2]] [[2, 1], [1, 2], [3, 4]] = [[1, 2], [3, 4]] ∧
    candidates [[1, 1], [1, 2], [3, 4]] [[1, 2]] [[1, 1], [1, 2], [3, 4]] = [[1, 2], [3, 4]] := by
  decide

example : candidates [[1, 2], [3, 4], [5, 6], [7, 8]] [[7, 8], [3, 4], [0, 0]] [10, 20, 30, 40] = [10, 30] := by decide

end Removal

/-! ## Histories -/

section Calls
variable {A : Type*} [DecidableEq A]

/-- The points proposed since the last new MC sample, from the records of the calls. -/
def sinceDraw (rs : List (Rec A)) : List (List A) := rs.foldl (fun acc r => if r.new then r.out else acc ++ r.out) []

theorem runCalls_append (m : ℕ) (s s' : State A) (cs : List (Call A)) (rs : List (Rec A)) (c : Call A)
    (h : runCalls m s cs = .ok (s', rs)) : runCalls m s (cs ++ [c]) =
      (match multiAdd m s' c with | .error e => .error e | .ok (s'', r) => .ok (s'', rs ++ [r])) := by
  induction cs generalizing s rs with
  | nil => cases h; simp only [List.nil_append, runCalls]; cases multiAdd m s' c <;> rfl
  | cons a cs ih =>
    simp only [runCalls, List.cons_append] at h ⊢
    cases ha : multiAdd m s a with
    | error e => rw [ha] at h; cases h
    | ok q =>
      obtain ⟨s1, r1⟩ := q
      rw [ha] at h
      dsimp only at h ⊢
      cases hb : runCalls m s1 cs with
      | error e => rw [hb] at h; cases h
      | ok q2 =>
        obtain ⟨s2, rs2⟩ := q2
        rw [hb] at h
        cases h
        rw [ih s1 rs2 hb]
        cases multiAdd m s' c <;> rfl

/-- What every call leaves behind. -/
structure Inv (m : ℕ) (cs : List (Call A)) (s : State A) (rs : List (Rec A)) : Prop where
  len : rs.length = cs.length
  i : s.i = cs.length
  base : 0 < cs.length → s.base.isSome
  new : ∀ (k : ℕ) (h : k < rs.length) (h' : k < cs.length), (rs[k].new = true ↔ k % m = 0 ∨ cs[k].force = true)
  prop : s.proposed = sinceDraw rs

theorem multiAdd_ok (m : ℕ) (hm : 0 < m) (s : State A) (c : Call A) (h : s.base.isSome ∨ s.i = 0) :
    ∃ b, multiAdd m s c = .ok
      ({ i := s.i + 1, base := some b,
         proposed := (if sampleNow m s.i c.force then [] else s.proposed) ++
          c.sel (candidates (if sampleNow m s.i c.force then b else b.filter c.keep) (if sampleNow m s.i c.force then [] else s.proposed)
            (if sampleNow m s.i c.force then b else b.filter c.keep)) },
       { new := sampleNow m s.i c.force, sample := if sampleNow m s.i c.force then b else b.filter c.keep,
         cands := candidates (if sampleNow m s.i c.force then b else b.filter c.keep) (if sampleNow m s.i c.force then [] else s.proposed)
            (if sampleNow m s.i c.force then b else b.filter c.keep),
         out := c.sel (candidates (if sampleNow m s.i c.force then b else b.filter c.keep)
          (if sampleNow m s.i c.force then [] else s.proposed) (if sampleNow m s.i c.force then b else b.filter c.keep)) }) ∧
      (sampleNow m s.i c.force = true → b = c.draw) ∧ (sampleNow m s.i c.force = false → s.base = some b) := by
  unfold multiAdd
  rw [if_neg (by omega)]
  dsimp only
  by_cases hn : sampleNow m s.i c.force = true
  · refine ⟨c.draw, ?_, fun _ => rfl, (fun hf => by rw [hn] at hf; cases hf)⟩
    simp only [hn, if_true]
  · have hn' : sampleNow m s.i c.force = false := by simpa using hn
    have hb : s.base.isSome := by
      rcases h with h | h
      · exact h
      · exfalso; apply hn; simp [sampleNow, h]
    obtain ⟨b, hb⟩ := Option.isSome_iff_exists.1 hb
    refine ⟨b, ?_, (fun hf => by rw [hn'] at hf; cases hf), fun _ => hb⟩
    simp only [hn', hb]
    rfl

theorem sampleNow_iff (m i : ℕ) (f : Bool) : sampleNow m i f = true ↔ i % m = 0 ∨ f = true := by
  simp [sampleNow]

theorem inv_run (m : ℕ) (hm : 0 < m) (cs : List (Call A)) : ∃ s rs, runCalls m init cs = .ok (s, rs) ∧ Inv m cs s rs := by
  induction cs using List.reverseRecOn with
  | nil => exact ⟨init, [], rfl, rfl, rfl, by simp, by simp, rfl⟩
  | append_singleton cs c ih =>
    obtain ⟨s, rs, hr, hI⟩ := ih
    have hb : s.base.isSome ∨ s.i = 0 := by
      rcases Nat.eq_zero_or_pos cs.length with h | h
      · right; rw [hI.i, h]
      · exact Or.inl (hI.base h)
    obtain ⟨b, hok, _, _⟩ := multiAdd_ok m hm s c hb
    refine ⟨_, _, by rw [runCalls_append m init s cs rs c hr, hok], ?_⟩
    refine ⟨by simp [hI.len], by simp [hI.i], fun _ => rfl, ?_, ?_⟩
    · intro k h h'
      by_cases hk : k < rs.length
      · have hk' : k < cs.length := by rw [← hI.len]; exact hk
        rw [List.getElem_append_left hk, List.getElem_append_left hk']
        exact hI.new k hk hk'
      · have hk' : k = rs.length := by simp at h; omega
        subst hk'
        rw [List.getElem_append_right (le_refl _)]
        have : (cs ++ [c])[rs.length] = c := by
          rw [List.getElem_append_right (by rw [hI.len])]; simp
        rw [this]
        simp only [Nat.sub_self, List.getElem_cons_zero]
        rw [sampleNow_iff, hI.i, hI.len]
    · unfold sinceDraw
      rw [List.foldl_append]
      simp only [List.foldl_cons, List.foldl_nil]
      have := hI.prop
      unfold sinceDraw at this
      rw [this]
      split <;> simp

/-- **C31**: with `mc_every = m ≥ 1` every history of calls succeeds (there is always a sample to be reused), and call number `k`
draws a new sample exactly if `k` is a multiple of `m` or it is forced to. -/
theorem C31_schedule (m : ℕ) (hm : 0 < m) (cs : List (Call A)) :
    ∃ s rs, runCalls m init cs = .ok (s, rs) ∧ rs.length = cs.length ∧
      ∀ (k : ℕ) (h : k < rs.length) (h' : k < cs.length), (rs[k].new = true ↔ k % m = 0 ∨ cs[k].force = true) := by
  obtain ⟨s, rs, h, hI⟩ := inv_run m hm cs
  exact ⟨s, rs, h, hI.len, hI.new⟩

/-- **C31**: among any `m` consecutive calls there is one that draws a new sample. -/
theorem C31_window (m : ℕ) (hm : 0 < m) (cs : List (Call A)) (s : State A) (rs : List (Rec A)) (h : runCalls m init cs = .ok (s, rs))
    (k : ℕ) (hk : k + m ≤ cs.length) : ∃ j, k ≤ j ∧ j < k + m ∧ ∃ hj : j < rs.length, rs[j].new = true := by
  obtain ⟨s', rs', h', hI⟩ := inv_run m hm cs
  rw [h] at h'
  cases h'
  have hlen := hI.len
  have hmod := Nat.mod_lt (k + m - 1) hm
  have hdm := Nat.div_add_mod (k + m - 1) m
  refine ⟨m * ((k + m - 1) / m), by omega, by omega, by omega, ?_⟩
  rw [hI.new _ (by omega) (by omega)]
  left
  exact Nat.mul_mod_right _ _

/-- With `mc_every = 0` the first call fails (division by zero). -/
theorem C31_zero (c : Call A) (cs : List (Call A)) (s : State A) : runCalls 0 s (c :: cs) = .error .zeroDivision := rfl

/-- Hypotheses of the theorem on histories: samples without repeated or confusable rows, and a pool that returns different points
of the candidates. -/
structure GoodCall (c : Call A) : Prop where
  nodup : c.draw.Nodup
  generic : Generic c.draw
  sub : ∀ l, ∀ x ∈ c.sel l, x ∈ l
  out : ∀ l : List (List A), l.Nodup → (c.sel l).Nodup

theorem hist_inv (m : ℕ) (hm : 0 < m) (cs : List (Call A)) (hc : ∀ c ∈ cs, GoodCall c) :
    ∃ s rs, runCalls m init cs = .ok (s, rs) ∧ Inv m cs s rs ∧ s.proposed.Nodup ∧
      (∀ b, s.base = some b → b.Nodup ∧ Generic b ∧ ∀ x ∈ s.proposed, x ∈ b) := by
  induction cs using List.reverseRecOn with
  | nil => exact ⟨init, [], rfl, ⟨rfl, rfl, by simp, by simp, rfl⟩, List.nodup_nil, fun b hb => by cases hb⟩
  | append_singleton cs c ih =>
    obtain ⟨s, rs, hr, hI, hnd, hb⟩ := ih fun c h => hc c (by simp [h])
    have hgc := hc c (by simp)
    obtain ⟨s', rs', hr', hI'⟩ := inv_run m hm (cs ++ [c])
    refine ⟨s', rs', hr', hI', ?_⟩
    rw [runCalls_append m init s cs rs c hr] at hr'
    have hbs : s.base.isSome ∨ s.i = 0 := by
      rcases Nat.eq_zero_or_pos cs.length with h | h
      · right; rw [hI.i, h]
      · exact Or.inl (hI.base h)
    obtain ⟨b, hok, h1, h2⟩ := multiAdd_ok m hm s c hbs
    rw [hok] at hr'
    injection hr' with hr'
    injection hr' with hs hrs
    by_cases hn : sampleNow m s.i c.force = true
    · have hbd := h1 hn
      subst hbd
      have : s'.proposed = c.sel c.draw := by rw [← hs]; simp [hn, candidates]
      rw [this]
      refine ⟨hgc.out _ hgc.nodup, ?_⟩
      intro b' hb'
      have : b' = c.draw := by rw [← hs] at hb'; cases hb'; rfl
      rw [this]
      exact ⟨hgc.nodup, hgc.generic, hgc.sub _⟩
    · have hn' : sampleNow m s.i c.force = false := by simpa using hn
      have hbb := h2 hn'
      obtain ⟨n1, n2, n3⟩ := hb b hbb
      have hc' := (C29_candidates_partial (b.filter c.keep) s.proposed (n1.filter _)
        (fun r hr x hx h => n2 r (List.mem_of_mem_filter hr) x (n3 x hx) h) (id : List A → List A)).1
      have hp : s'.proposed = s.proposed ++ c.sel ((b.filter c.keep).filter fun r => decide (r ∉ s.proposed)) := by
        rw [← hs, ← hc']; simp [hn']
      rw [hp]
      constructor
      · rw [List.nodup_append]
        refine ⟨hnd, hgc.out _ ((n1.filter _).filter _), ?_⟩
        intro x hx y hy hxy
        have := hgc.sub _ y hy
        rw [List.mem_filter] at this
        simp [← hxy, hx] at this
      · intro b' hb'
        have : b' = b := by rw [← hs] at hb'; cases hb'; rfl
        rw [this]
        refine ⟨n1, n2, ?_⟩
        intro x hx
        rcases List.mem_append.1 hx with h | h
        · exact n3 x h
        · have := hgc.sub _ x h
          exact List.mem_of_mem_filter (List.mem_of_mem_filter this)

/-- **C29** along histories (partial: samples without repeated or confusable rows): after any history, no point has been proposed
twice since the last MC sample was drawn, and the candidates of one more call are exactly the points of its (reweighted) sample not
proposed since then. -/
theorem C29_history_partial (m : ℕ) (hm : 0 < m) (cs : List (Call A)) (c : Call A) (hc : ∀ c ∈ cs, GoodCall c) (hc' : GoodCall c)
    (s : State A) (rs : List (Rec A)) (h : runCalls m init cs = .ok (s, rs)) (s' : State A) (r : Rec A)
    (h' : multiAdd m s c = .ok (s', r)) :
    (sinceDraw rs).Nodup ∧ (sinceDraw (rs ++ [r])).Nodup ∧
    r.cands = r.sample.filter (fun x => decide (x ∉ (if r.new then [] else sinceDraw rs))) ∧
    ∀ x ∈ r.out, x ∈ r.cands := by
  obtain ⟨s1, rs1, e1, hI, hnd, hb⟩ := hist_inv m hm cs hc
  rw [h] at e1
  cases e1
  have hcs : ∀ a ∈ cs ++ [c], GoodCall a := by
    intro a ha
    rcases List.mem_append.1 ha with ha | ha
    · exact hc a ha
    · rw [List.mem_singleton.1 ha]; exact hc'
  obtain ⟨s2, rs2, e2, hI2, hnd2, _⟩ := hist_inv m hm (cs ++ [c]) hcs
  rw [runCalls_append m init s cs rs c h, h'] at e2
  cases e2
  rw [← hI.prop, ← hI2.prop]
  refine ⟨hnd, hnd2, ?_⟩
  have hbs : s.base.isSome ∨ s.i = 0 := by
    rcases Nat.eq_zero_or_pos cs.length with h | h
    · right; rw [hI.i, h]
    · exact Or.inl (hI.base h)
  obtain ⟨b, hok, h1, h2⟩ := multiAdd_ok m hm s c hbs
  rw [h'] at hok
  injection hok with hok
  injection hok with hs hr
  refine ⟨?_, by rw [hr]; exact hc'.sub _⟩
  by_cases hn : sampleNow m s.i c.force = true
  · rw [hr]; simp [hn, candidates]
  · have hn' : sampleNow m s.i c.force = false := by simpa using hn
    obtain ⟨n1, n2, n3⟩ := hb b (h2 hn')
    have hcc := (C29_candidates_partial (b.filter c.keep) s.proposed (n1.filter _)
      (fun r hr x hx h => n2 r (List.mem_of_mem_filter hr) x (n3 x hx) h) (id : List A → List A)).1
    rw [hr]
    simp only [hn']
    exact hcc

end Calls

/-- A call that proposes the second candidate, if there are two. -/
def exCall (draw : List (List ℕ)) (i : ℕ) : Call ℕ := { force := false, draw := draw, keep := fun _ => true, sel := fun l => (l.drop i).take 1 }

/-- **C29** along histories is false in general: with `mc_every = 3` the point `(1, 2)` is proposed in two consecutive calls. -/
theorem C29_twice_counterexample :
    ∃ s rs, runCalls 3 init [exCall [[2, 1], [1, 2], [3, 4]] 1, exCall [] 0] = .ok (s, rs) ∧
      (rs.map fun r => r.new) = [true, false] ∧ (rs.map fun r => r.out) = [[[1, 2]], [[1, 2]]] := by
  refine ⟨_, _, rfl, ?_, ?_⟩ <;> decide

example : ∃ s rs, runCalls 3 init [exCall [[1, 2], [3, 4], [5, 6]] 1, exCall [] 0, exCall [] 0, exCall [[7, 8]] 0] = .ok (s, rs) ∧
    (rs.map fun r => r.out) = [[[3, 4]], [[1, 2]], [[5, 6]], [[7, 8]]] := by
  refine ⟨_, _, rfl, ?_⟩; decide

example : GoodCall (exCall [[1, 2], [3, 4], [5, 6]] 1) := by
  refine ⟨by decide, ?_, ?_, ?_⟩
  · unfold Generic; decide
  · intro l x hx; exact List.mem_of_mem_drop (List.mem_of_mem_take hx)
  · intro l hl
    exact (hl.sublist ((List.take_sublist _ _).trans (List.drop_sublist _ _)))

/-! ## C30 -/

section Reweight
variable {P : Type*}

theorem pyMax_fin (l : List ℝ) (h : l ≠ []) :
    ∃ M, Ext.pyMax (l.map Ext.fin) = some (.fin M) ∧ M ∈ l ∧ ∀ v ∈ l, v ≤ M := by
  cases l with
  | nil => exact absurd rfl h
  | cons a l =>
    clear h
    simp only [List.map_cons, Ext.pyMax, Option.some.injEq]
    induction l generalizing a with
    | nil => exact ⟨a, rfl, by simp, by simp⟩
    | cons b l ih =>
      simp only [List.map_cons, List.foldl_cons]
      by_cases hab : a < b
      · obtain ⟨M, h1, h2, h3⟩ := ih b
        refine ⟨M, ?_, by simp at h2 ⊢; tauto, ?_⟩
        · rw [← h1]; simp [Ext.pyMax2, Ext.gt, Ext.lt, hab]
        · intro v hv
          rcases List.mem_cons.1 hv with rfl | hv
          · exact le_trans hab.le (h3 b (by simp))
          · exact h3 v hv
      · obtain ⟨M, h1, h2, h3⟩ := ih a
        refine ⟨M, ?_, by simp at h2 ⊢; tauto, ?_⟩
        · rw [← h1]; simp [Ext.pyMax2, Ext.gt, Ext.lt, hab]
        · intro v hv
          rcases List.mem_cons.1 hv with rfl | hv
          · exact h3 v (by simp)
          · rcases List.mem_cons.1 hv with rfl | hv
            · exact le_trans (not_lt.1 hab) (h3 a (by simp))
            · exact h3 v (by simp [hv])

theorem sel_map {Q B : Type*} (L : List Q) (f : Q → Bool) (g : Q → B) : sel (L.map f) (L.map g) = (L.filter f).map g := by
  unfold sel
  induction L with
  | nil => rfl
  | cons a L ih =>
    simp only [List.map_cons, List.zip_cons_cons, List.filter_cons]
    cases f a <;> simp_all

theorem drop0_map {Q B : Type*} (L : List Q) (w : Q → Ext ℝ) (g : Q → B) :
    drop0 (L.map w) (L.map g) = (L.filter fun q => !Ext.eqv (w q) (.fin 0)).map g := by
  unfold drop0
  induction L with
  | nil => rfl
  | cons a L ih =>
    simp only [List.map_cons, List.zip_cons_cons, List.filter_cons]
    cases Ext.eqv (w a) (.fin 0) <;> simp_all

theorem zipWith_map_map {Q B C D : Type*} (L : List Q) (F : B → C → D) (g : Q → B) (h : Q → C) :
    List.zipWith F (L.map g) (L.map h) = L.map fun q => F (g q) (h q) := by
  induction L with
  | nil => rfl
  | cons a L ih => simp [ih]

/-- The points of a sample with their values of `y` and weights. -/
def Holds (s : Sample P) (L : List (P × ℝ × ℝ)) : Prop :=
  s.X = L.map (fun q => q.1) ∧ s.y = L.map (fun q => .fin q.2.1) ∧
  (s.w = some (L.map fun q => q.2.2) ∨ s.w = none ∧ ∀ q ∈ L, q.2.2 = 1)

open Classical in
theorem within_map {B : Type*} (inB : Option (P → Bool)) (X : List P) (L L1 : List (P × ℝ × ℝ)) (hX : X = L.map fun q => q.1)
    (hL1 : L1 = L.filter fun q => decide (∀ g, inB = some g → g q.1 = true)) (g : P × ℝ × ℝ → B) : within inB X (L.map g) = L1.map g := by
  cases inB with
  | none => rw [hL1]; simp [within]
  | some f =>
    simp only [within]
    rw [hX, List.map_map, sel_map, hL1]
    congr 1
    apply List.filter_congr
    intro q _
    cases h : f q.1 <;> simp [h]

open Classical in
/-- **C30** (partial: the old values are finite, the new ones finite or minus infinity, the weights positive, and at least one point
within the bounds has a finite new value): exactly the points within bounds whose new value is finite are kept, in the same order, each
with the new value and standard deviation at that point and weight `w exp(y_new - y_old) / M`, with `M` the maximum of `w exp(y_new - y_old)`;
these weights are positive, at most 1, and one is 1. -/
theorem C30_reweight_partial (pred : P → Ext ℝ × ℝ) (f : P → ℝ) (hf : ∀ x, (pred x).1 = .fin (f x) ∨ (pred x).1 = .negInf)
    (inB : Option (P → Bool)) (s : Sample P) (L : List (P × ℝ × ℝ)) (hL : Holds s L) (hw : ∀ q ∈ L, 0 < q.2.2)
    (L' : List (P × ℝ × ℝ)) (hL' : L' = L.filter fun q => decide ((∀ g, inB = some g → g q.1 = true) ∧ (pred q.1).1 ≠ .negInf))
    (hne : L' ≠ []) :
    ∃ M, (∀ q ∈ L', q.2.2 * Real.exp (f q.1 - q.2.1) ≤ M) ∧ (∃ q ∈ L', q.2.2 * Real.exp (f q.1 - q.2.1) = M) ∧
      reweight pred inB s = .ok
        { X := L'.map fun q => q.1, y := L'.map fun q => .fin (f q.1), sigma := L'.map fun q => (pred q.1).2,
          w := L'.map fun q => .fin (q.2.2 * Real.exp (f q.1 - q.2.1) / M) } ∧
      (∀ q ∈ L', 0 < q.2.2 * Real.exp (f q.1 - q.2.1) / M ∧ q.2.2 * Real.exp (f q.1 - q.2.1) / M ≤ 1) ∧
      ∃ q ∈ L', q.2.2 * Real.exp (f q.1 - q.2.1) / M = 1 := by
  obtain ⟨hX, hy, hwt⟩ := hL
  -- the points within the bounds
  obtain ⟨L1, hL1⟩ : ∃ L1, L1 = L.filter fun q => decide (∀ g, inB = some g → g q.1 = true) := ⟨_, rfl⟩
  have hL'1 : L' = L1.filter fun q => decide ((pred q.1).1 ≠ .negInf) := by
    rw [hL', hL1, List.filter_filter]
    apply List.filter_congr
    intro q _
    by_cases h1 : (∀ g, inB = some g → g q.1 = true) <;> by_cases h2 : (pred q.1).1 = .negInf <;> simp [h1, h2]
  have hsub : ∀ q ∈ L1, q ∈ L := fun q hq => by rw [hL1] at hq; exact List.mem_of_mem_filter hq
  have hsel : ∀ {B : Type _} (g : P × ℝ × ℝ → B), within inB s.X (L.map g) = L1.map g := within_map inB s.X L L1 hX hL1
  have hXs : within inB s.X s.X = L1.map fun q => q.1 := by
    have := within_map inB s.X L L1 hX hL1 fun q => q.1
    rwa [← hX] at this
  -- unnormalised weights
  let g : P × ℝ × ℝ → ℝ := fun q => if (pred q.1).1 = .negInf then 0 else q.2.2 * Real.exp (f q.1 - q.2.1)
  have hgpos : ∀ q ∈ L1, (pred q.1).1 ≠ .negInf → 0 < g q := by
    intro q hq h
    simp only [g, if_neg h]
    exact mul_pos (hw q (hsub q hq)) (Real.exp_pos _)
  have hL1ne : L1.map g ≠ [] := by
    intro h
    apply hne
    rw [hL'1, List.map_eq_nil_iff.1 h]; rfl
  obtain ⟨M, hM, hMm, hMle⟩ := pyMax_fin (L1.map g) hL1ne
  obtain ⟨q0, hq0⟩ := List.exists_mem_of_ne_nil L' hne
  have hq01 : q0 ∈ L1 ∧ (pred q0.1).1 ≠ .negInf := by
    rw [hL'1, List.mem_filter] at hq0
    exact ⟨hq0.1, by simpa using hq0.2⟩
  have hMpos : 0 < M := lt_of_lt_of_le (hgpos q0 hq01.1 hq01.2) (hMle _ (List.mem_map_of_mem hq01.1))
  have hgL' : ∀ q ∈ L', q ∈ L1 ∧ (pred q.1).1 ≠ .negInf ∧ g q = q.2.2 * Real.exp (f q.1 - q.2.1) := by
    intro q hq
    rw [hL'1, List.mem_filter] at hq
    have h2 : (pred q.1).1 ≠ .negInf := by simpa using hq.2
    exact ⟨hq.1, h2, by simp [g, h2]⟩
  have hex : ∃ q ∈ L', q.2.2 * Real.exp (f q.1 - q.2.1) = M := by
    obtain ⟨q, hq, hqM⟩ := List.mem_map.1 hMm
    have h2 : (pred q.1).1 ≠ .negInf := by
      intro h
      have : g q = 0 := by simp [g, h]
      rw [this] at hqM
      linarith
    refine ⟨q, ?_, ?_⟩
    · rw [hL'1, List.mem_filter]; exact ⟨hq, by simpa using h2⟩
    · rw [← hqM]; simp [g, h2]
  refine ⟨M, ?_, hex, ?_, ?_, ?_⟩
  · intro q hq
    obtain ⟨a, _, c⟩ := hgL' q hq
    rw [← c]
    exact hMle _ (List.mem_map_of_mem a)
  · unfold reweight
    dsimp only
    rw [hXs, hy, hsel]
    have hw0 : oldWeights inB s (L1.map fun q => q.1) = L1.map fun q => q.2.2 := by
      unfold oldWeights
      rcases hwt with h | ⟨h, h1⟩
      · rw [h]; dsimp only; rw [hsel]
      · rw [h]; dsimp only; rw [List.map_map]
        apply List.map_congr_left
        intro q hq
        exact (h1 q (hsub q hq)).symm
    rw [hw0]
    rw [List.map_map, List.map_map, zipWith_map_map, List.map_map, zipWith_map_map]
    have hW : (L1.map fun q => mulE q.2.2 ((expE ∘ fun q => Ext.sub (((fun x => (pred x).1) ∘ fun q => q.1) q) (.fin q.2.1)) q)) =
        (L1.map g).map .fin := by
      rw [List.map_map]
      apply List.map_congr_left
      intro q hq
      rcases hf q.1 with h | h <;> simp [h, g, Ext.sub, expE, mulE]
    rw [hW, hM]
    dsimp only
    have hdiv : ((L1.map g).map Ext.fin).map (fun v => divE v (.fin M)) = L1.map fun q => .fin (g q / M) := by
      rw [List.map_map, List.map_map]
      apply List.map_congr_left
      intro q hq
      simp [divE, Ext.divFin, hMpos.ne']
    rw [hdiv]
    have hfil : (L1.filter fun q => !Ext.eqv (.fin (g q / M)) (.fin (0 : ℝ))) = L' := by
      rw [hL'1]
      apply List.filter_congr
      intro q hq
      by_cases h : (pred q.1).1 = .negInf
      · simp [h, g, Ext.eqv, Ext.le]
      · have := div_pos (hgpos q hq h) hMpos
        simp [h, Ext.eqv, Ext.le, this]
    have hwf : (L1.map fun q => Ext.fin (g q / M)).filter (fun v => !Ext.eqv v (.fin 0)) = L'.map fun q => .fin (g q / M) := by
      rw [List.filter_map, ← hfil]; rfl
    rw [drop0_map, drop0_map, drop0_map, hwf, hfil]
    congr 1
    congr 1
    · apply List.map_congr_left
      intro q hq
      rcases hf q.1 with h | h
      · simpa using h
      · exact absurd h (hgL' q hq).2.1
    · apply List.map_congr_left
      intro q hq
      rw [(hgL' q hq).2.2]
  · intro q hq
    obtain ⟨a, b, c⟩ := hgL' q hq
    rw [← c]
    exact ⟨div_pos (hgpos q a b) hMpos, (div_le_one hMpos).2 (hMle _ (List.mem_map_of_mem a))⟩
  · obtain ⟨q, hq, hqM⟩ := hex
    exact ⟨q, hq, by rw [hqM, div_self hMpos.ne']⟩

/-- **C30**: a sequence of reweightings (with any surrogates and bounds) gives the same as the last one alone. -/
theorem C30_last (m : Mc P) (calls : List ((P → Ext ℝ × ℝ) × Option (P → Bool))) (c : (P → Ext ℝ × ℝ) × Option (P → Bool)) (m1 m2 : Mc P)
    (h1 : calls.foldlM (fun m c => m.reweight c.1 c.2) m = .ok m1) (h2 : m1.reweight c.1 c.2 = .ok m2) :
    m.reweight c.1 c.2 = .ok m2 ∧ m2.orig = m.orig := by
  have step : ∀ (m m1 : Mc P) (c : (P → Ext ℝ × ℝ) × Option (P → Bool)), m.reweight c.1 c.2 = .ok m1 → m1.orig = m.orig := by
    intro m m1 c h
    unfold Mc.reweight at h
    split at h
    · cases h
    · split at h
      · cases h
      · cases h; rfl
  have ho : m1.orig = m.orig := by
    clear h2
    induction calls generalizing m with
    | nil => cases h1; rfl
    | cons a l ih =>
      rw [List.foldlM_cons] at h1
      cases ha : m.reweight a.1 a.2 with
      | error e => rw [ha] at h1; cases h1
      | ok m' =>
        rw [ha] at h1
        rw [ih m' h1, step m m' a ha]
  refine ⟨?_, by rw [step m1 m2 c h2, ho]⟩
  unfold Mc.reweight at h2 ⊢
  rw [← ho]
  split at h2
  · cases h2
  · split at h2
    · cases h2
    · exact h2

/-- What `last_MC_sample` returns after drawing a sample, and after reweighting it. -/
theorem C30_shown (m m' : Mc P) (pred pred' : P → Ext ℝ × ℝ) (X : List P) (w : Option (List ℝ)) (inB : Option (P → Bool))
    (h : (m.set pred X w).reweight pred' inB = .ok m') :
    (m.set pred X w).last = some (X, X.map (fun x => (pred x).1), X.map (fun x => (pred x).2), w.map fun w => w.map Ext.fin) ∧
    ∃ r, reweight pred' inB { X := X, y := X.map fun x => (pred x).1, sigma := X.map fun x => (pred x).2, w := w } = .ok r ∧
      m'.last = some (r.X, r.y, r.sigma, some r.w) := by
  refine ⟨rfl, ?_⟩
  unfold Mc.reweight Mc.set at h
  dsimp only at h
  split at h
  · cases h
  · rename_i r hr
    cases h
    exact ⟨r, hr, rfl⟩

/-- **C30** is false if an old value is minus infinity (as can happen with the uniform sampler): the point gets the weight NaN and all the
others are dropped. -/
theorem C30_old_infinite_counterexample :
    reweight (fun _ : ℕ => (.fin 0, 1)) none { X := [0, 1], y := [.negInf, .fin 0], sigma := [1, 1], w := none } =
      .ok { X := [0], y := [.fin 0], sigma := [1], w := [.nan] } := by
  simp [reweight, oldWeights, within, Ext.sub, expE, mulE, Ext.pyMax, Ext.pyMax2, Ext.gt, Ext.lt, divE, Ext.divFin, drop0, Ext.eqv, Ext.le]

/-- **C30** is false if all the new values are minus infinity: all weights are NaN. -/
theorem C30_new_infinite_counterexample :
    reweight (fun _ : ℕ => (.negInf, 0)) none { X := [0, 1], y := [.fin 0, .fin 1], sigma := [1, 1], w := none } =
      .ok { X := [0, 1], y := [.negInf, .negInf], sigma := [0, 0], w := [.nan, .nan] } := by
  simp [reweight, oldWeights, within, Ext.sub, expE, mulE, Ext.pyMax, Ext.pyMax2, Ext.gt, Ext.lt, divE, Ext.divFin, drop0, Ext.eqv, Ext.le]

/-- **C30**: if no point of the sample is within the bounds, the reweighting raises. -/
theorem C30_no_points (pred : P → Ext ℝ × ℝ) (g : P → Bool) (s : Sample P) (h : ∀ x ∈ s.X, g x = false) :
    reweight pred (some g) s = .error .emptyMax := by
  have hs : sel (s.X.map g) s.X = [] := by
    have := sel_map s.X g id
    simp only [List.map_id] at this
    rw [this, List.filter_eq_nil_iff]
    intro x hx; simp [h x hx]
  unfold reweight within
  dsimp only
  rw [hs]
  simp [Ext.pyMax]

example : ∃ s : Sample ℕ, ∃ L, Holds s L ∧ L.length = 2 ∧ (∀ q ∈ L, 0 < q.2.2) ∧ ∀ x, (((fun x => (.fin x, 1)) : ℕ → Ext ℝ × ℝ) x).1 ≠ .negInf :=
  ⟨{ X := [0, 1], y := [.fin 3, .fin 4], sigma := [1, 1], w := some [1, 2] }, [(0, 3, 1), (1, 4, 2)],
    ⟨rfl, rfl, Or.inl rfl⟩, rfl, by simp, by simp⟩

end Reweight

/-! ## C62 -/

section Ultra
open Predict
variable {d n : ℕ}

/-- Minus infinity replaced by another value. -/
def repl (v : Ext ℝ) : Ext ℝ → Ext ℝ
  | .negInf => v
  | a => a

theorem map_maskSet {B C : Type*} (f : B → C) (v : B) (m : List Bool) (l : List B) : (maskSet v m l).map f = maskSet (f v) m (l.map f) := by
  induction m generalizing l with
  | nil => cases l <;> rfl
  | cons b m ih =>
    cases l with
    | nil => rfl
    | cons a l => cases b <;> simp [maskSet, ih]

theorem map_scatter {B C : Type*} (f : B → C) (m : List Bool) (vs l : List B) : (scatter m vs l).map f = scatter m (vs.map f) (l.map f) := by
  induction m generalizing vs l with
  | nil => cases vs <;> cases l <;> rfl
  | cons b m ih =>
    cases l with
    | nil => cases b <;> cases vs <;> rfl
    | cons a l => cases b <;> cases vs <;> simp [scatter, ih]

theorem trustMask_minf (st : St d n) (v : Ext ℝ) (X : List (Fin d → ℝ)) (ign : Bool) (l : List (Ext ℝ)) :
    ({ st with minf := v } : St d n).trustMask X ign (l.map (repl v)) =
      (({ st with minf := .negInf } : St d n).trustMask X ign l).map (repl v) := by
  unfold St.trustMask
  dsimp only
  split
  · rw [map_maskSet]; rfl
  · rfl

/-- The value of `minus_inf_value` only replaces the minus infinities of the means. -/
theorem predict_minf (st : St d n) (v : Ext ℝ) (X : List (Fin d → ℝ)) (ign : Bool) :
    ({ st with minf := v } : St d n).predict X ign =
      (({ st with minf := .negInf } : St d n).predict X ign).map fun q => (q.1.map (repl v), q.2) := by
  have hfin : ∀ y : List ℝ, (y.map Ext.fin).map (repl v) = y.map Ext.fin := by
    intro y; rw [List.map_map]; rfl
  have hm : ∀ (st : St d n) X, ({ st with minf := v } : St d n).means X = ({ st with minf := .negInf } : St d n).means X := fun st X => rfl
  obtain ⟨fitted, prior, M, chol, R, svm, trust, clip, minf⟩ := st
  have tm := fun svm X ign l => trustMask_minf ⟨fitted, prior, M, chol, R, svm, trust, clip, minf⟩ v X ign l
  have hm := fun svm X => hm ⟨fitted, prior, M, chol, R, svm, trust, clip, minf⟩ X
  dsimp only at tm hm
  unfold St.predict
  dsimp only
  split
  · simp only [Except.map]
    have : (X.map fun _ => (Ext.fin 0 : Ext ℝ)) = (X.map fun _ => (Ext.fin 0 : Ext ℝ)).map (repl v) := by rw [List.map_map]; rfl
    rw [this, tm, ← this]
  · cases svm with
    | none =>
      dsimp only
      rw [hm]
      cases (⟨fitted, prior, M, chol, R, none, trust, clip, .negInf⟩ : St d n).means X with
      | error e => rfl
      | ok y =>
        simp only [Except.map]
        rw [← hfin y, tm, hfin]
    | some c =>
      dsimp only
      cases c.predict (X.map M.trX) with
      | error e => rfl
      | ok finite =>
        dsimp only
        split
        · simp only [Except.map, List.map_map]; rfl
        · rw [hm]
          cases (⟨fitted, prior, M, chol, R, some c, trust, clip, .negInf⟩ : St d n).means (maskGet finite X) with
          | error e => rfl
          | ok y =>
            simp only [Except.map]
            have : scatter finite (y.map Ext.fin) (maskSet v (finite.map not) (X.map fun _ => .fin 1)) =
                (scatter finite (y.map Ext.fin) (maskSet .negInf (finite.map not) (X.map fun _ => .fin 1))).map (repl v) := by
              rw [map_scatter, map_maskSet, hfin, List.map_map]; rfl
            rw [this, tm]

/-- The value that UltraNest sees (gp_acquisition.py:784-794): the mean with `minus_inf_value` replaced. -/
noncomputable def logp (st : St d n) (X : List (Fin d → ℝ)) : Except Err (List (Ext ℝ)) :=
  (({ st with minf := ultraMinf } : St d n).predict X false).map Prod.fst

/-- The surrogate excludes the point. -/
def Excluded (st : St d n) (x : Fin d → ℝ) : Prop := st.Infinite x ∨ st.Outside false x

/-- What UltraNest sees at two points, one excluded and one not. -/
theorem logp_two (st : St d n) (hfit : st.fitted = true) (hminf : st.minf = .negInf) (hs : 0 ≤ st.M.s) (x z : Fin d → ℝ)
    (hx : Excluded st x) (hz : ¬ Excluded st z) (ms : List (Ext ℝ)) (ss : List ℝ) (h : st.predict [x, z] false = .ok (ms, ss)) :
    ∃ v, ms = [.negInf, .fin v] ∧ logp st [x, z] = .ok [.fin (-1e-300), .fin v] := by
  have hst : ({ st with minf := .negInf } : St d n) = st := by cases st; simp_all
  obtain ⟨hl, hl2, H⟩ := C14_predict st hfit hminf hs [x, z] false ms ss h
  match ms, hl with
  | [a, b], _ =>
    have h0 := (H 0 (by simp) (by simp) (by simp [hl2])).1
    have h1 := H 1 (by simp) (by simp) (by simp [hl2])
    have ea : a = .negInf := h0.2 hx
    have eb : b ≠ .negInf := fun he => hz (h1.1.1 he)
    obtain ⟨v, hv, _⟩ := h1.2.1 eb
    have hv' : b = .fin v := hv
    refine ⟨v, by rw [ea, hv'], ?_⟩
    unfold logp
    rw [predict_minf, hst, h, ea, hv']
    rfl

/-- **C62** (partial: only if the mean of the point that is not excluded is larger than `-1e-300`): UltraNest sees a smaller value at an excluded
point than at one that is not excluded. -/
theorem C62_ultranest_partial (st : St d n) (hfit : st.fitted = true) (hminf : st.minf = .negInf) (hs : 0 ≤ st.M.s) (x z : Fin d → ℝ)
    (hx : Excluded st x) (hz : ¬ Excluded st z) (v : ℝ) (ss : List ℝ) (h : st.predict [x, z] false = .ok ([.negInf, .fin v], ss)) :
    ∃ a b, logp st [x, z] = .ok [.fin a, .fin b] ∧ b = v ∧ (a < b ↔ -1e-300 < v) := by
  obtain ⟨v', h1, h2⟩ := logp_two st hfit hminf hs x z hx hz _ ss h
  simp at h1
  subst h1
  exact ⟨_, _, h2, rfl, Iff.rfl⟩

/-- Surrogate of `Copy.exTwo` (mean `x/2`, trust region `[-10, 10]`). -/
theorem exTwo_predict : ∃ ss, exTwo.predict [fun _ => 20, fun _ => -4] false = .ok ([.negInf, .fin (-2)], ss) := by
  have hm : exTwo.means [fun _ => 20, fun _ => -4] = .ok [3, -2] := by
    unfold St.means
    have : ceiling 3 (List.ofFn exTwo.R.y) = .ok 3 := by simp [ceiling, exTwo, Tools.maxOf, Tools.minOf]
    have hc : exTwo.clip = some 3 := rfl
    rw [hc]
    dsimp only
    rw [this]
    simp only [List.map_cons, List.map_nil, exTwo_mean]
    norm_num
  have h1 : outside (fun _ : Fin 1 => ((-10 : ℝ), (10 : ℝ))) (fun _ => 20) = true := by
    rw [outside_iff]; exact ⟨0, Or.inr (by norm_num)⟩
  have h2 : outside (fun _ : Fin 1 => ((-10 : ℝ), (10 : ℝ))) (fun _ => -4) = false := by
    rw [← Bool.not_eq_true, outside_iff]; push Not; intro j; constructor <;> norm_num
  refine ⟨[exTwo.M.std exTwo.chol exTwo.R fun _ => 20, exTwo.M.std exTwo.chol exTwo.R fun _ => -4], ?_⟩
  unfold St.predict
  have hf : exTwo.fitted = true := rfl
  have hsv : exTwo.svm = none := rfl
  simp only [hf, hsv, hm]
  have ht : exTwo.trust = some fun _ => (-10, 10) := rfl
  simp [St.trustMask, ht, maskSet, h1, h2, show exTwo.minf = .negInf from rfl]

set_option exponentiation.threshold 400 in
/-- **C62** is false: a point outside of the trust region gets a value larger than a point inside. -/
theorem C62_ultranest_counterexample :
    ∃ a b, logp exTwo [fun _ => 20, fun _ => -4] = .ok [.fin a, .fin b] ∧ Excluded exTwo (fun _ => 20) ∧
      ¬ Excluded exTwo (fun _ => -4) ∧ b < a := by
  have hx : Excluded exTwo (fun _ => 20) := Or.inr ⟨rfl, fun _ => (-10, 10), rfl, 0, Or.inr (by norm_num)⟩
  have hz : ¬ Excluded exTwo (fun _ => -4) := by
    rintro (⟨c, hc, _⟩ | ⟨_, b, hb, j, hj⟩)
    · cases hc
    · have : b = fun _ => ((-10 : ℝ), (10 : ℝ)) := (Option.some.inj hb).symm
      subst this
      rcases hj with hj | hj <;> norm_num at hj
  obtain ⟨ss, h⟩ := exTwo_predict
  obtain ⟨v, h1, h2⟩ := logp_two exTwo rfl rfl (by show (0 : ℝ) ≤ 1; norm_num) _ _ hx hz _ ss h
  simp at h1
  exact ⟨_, _, h2, hx, hz, by rw [← h1]; norm_num⟩

example : ∃ a b, logp exTwo [fun _ => 20, fun _ => -4] = .ok [.fin a, .fin b] ∧ b = -2 ∧ (a < b ↔ -1e-300 < (-2 : ℝ)) := by
  have hx : Excluded exTwo (fun _ => 20) := Or.inr ⟨rfl, fun _ => (-10, 10), rfl, 0, Or.inr (by norm_num)⟩
  have hz : ¬ Excluded exTwo (fun _ => -4) := by
    rintro (⟨c, hc, _⟩ | ⟨_, b, hb, j, hj⟩)
    · cases hc
    · have : b = fun _ => ((-10 : ℝ), (10 : ℝ)) := (Option.some.inj hb).symm
      subst this
      rcases hj with hj | hj <;> norm_num at hj
  obtain ⟨ss, h⟩ := exTwo_predict
  exact C62_ultranest_partial exTwo rfl rfl (by show (0 : ℝ) ≤ 1; norm_num) _ _ hx hz _ ss h

end Ultra

/-! ## Each theorem applied to concrete data -/

theorem exCall_good {draw : List (List ℕ)} {i : ℕ} (h : draw.Nodup) (hg : Generic draw) : GoodCall (exCall draw i) :=
  ⟨h, hg, fun l x hx => List.mem_of_mem_drop (List.mem_of_mem_take hx),
    fun l hl => hl.sublist ((List.take_sublist _ _).trans (List.drop_sublist _ _))⟩

def exCalls : List (Call ℕ) := [exCall [[1, 2], [3, 4], [5, 6]] 1, exCall [] 0, exCall [] 0, exCall [[7, 8]] 0]

/-- Calls 0 and 3 draw a sample, calls 1 and 2 do not. -/
example : ∃ s rs, runCalls 3 init exCalls = .ok (s, rs) ∧ rs.map (·.new) = [true, false, false, true] := by
  obtain ⟨s, rs, h, hl, H⟩ := C31_schedule 3 (by norm_num) exCalls
  refine ⟨s, rs, h, ?_⟩
  match rs, hl, H with
  | [a, b, c, d], _, H =>
    have h0 := H 0 (by simp) (by decide)
    have h1 := H 1 (by simp) (by decide)
    have h2 := H 2 (by simp) (by decide)
    have h3 := H 3 (by simp) (by decide)
    simp [exCalls, exCall] at h0 h1 h2 h3
    simp [h0, h1, h2, h3]

example : ∃ s rs, runCalls 3 init exCalls = .ok (s, rs) ∧ ∃ j, 1 ≤ j ∧ j < 4 ∧ ∃ hj : j < rs.length, rs[j].new = true := by
  obtain ⟨s, rs, h, -⟩ := C31_schedule 3 (by norm_num) exCalls
  exact ⟨s, rs, h, C31_window 3 (by norm_num) exCalls s rs h 1 (by decide)⟩

example : runCalls 0 init exCalls = .error .zeroDivision := C31_zero _ _ _

example : ∃ s rs s' r, runCalls 3 init [exCall [[1, 2], [3, 4], [5, 6]] 1] = .ok (s, rs) ∧ multiAdd 3 s (exCall [] 0) = .ok (s', r) ∧
    (sinceDraw (rs ++ [r])).Nodup := by
  obtain ⟨s, rs, h⟩ : ∃ s rs, runCalls 3 init [exCall [[1, 2], [3, 4], [5, 6]] 1] = .ok (s, rs) := ⟨_, _, rfl⟩
  obtain ⟨s', r, h'⟩ : ∃ s' r, multiAdd 3 s (exCall [] 0) = .ok (s', r) := by cases h; exact ⟨_, _, rfl⟩
  refine ⟨s, rs, s', r, h, h', (C29_history_partial 3 (by norm_num) _ _ ?_ ?_ s rs h s' r h').2.1⟩
  · intro c hc
    rw [List.mem_singleton.1 hc]
    exact exCall_good (by decide) (by unfold Generic; decide)
  · exact exCall_good (by decide) (by unfold Generic; decide)

/-- A sample of two points with weights 1 and 2. -/
def exSample : Sample ℕ := { X := [0, 1], y := [.fin 3, .fin 4], sigma := [1, 1], w := some [1, 2] }

open Classical in
/-- The values of the sample are replaced by those of the new prediction, and the largest weight is 1. -/
example : ∃ r, reweight (fun x : ℕ => (.fin (x : ℝ), 1)) none exSample = .ok r ∧ r.y = [.fin 0, .fin 1] := by
  obtain ⟨M, -, -, h, -⟩ := C30_reweight_partial (P := ℕ) (fun x => (.fin (x : ℝ), 1)) (fun x => (x : ℝ)) (fun x => .inl rfl) none exSample
    [(0, 3, 1), (1, 4, 2)] ⟨rfl, rfl, .inl rfl⟩ (by simp) [(0, 3, 1), (1, 4, 2)] (by simp) (by simp)
  exact ⟨_, h, by simp⟩

/-- Two reweightings give the same as the second one. -/
example : ∃ m1 m2 : Mc ℕ, (⟨some exSample, none, false⟩ : Mc ℕ).reweight (fun x : ℕ => (.fin (5 * x : ℝ), 1)) none = .ok m1 ∧
    m1.reweight (fun x : ℕ => (.fin (x : ℝ), 1)) none = .ok m2 ∧
    (⟨some exSample, none, false⟩ : Mc ℕ).reweight (fun x : ℕ => (.fin (x : ℝ), 1)) none = .ok m2 := by
  have R : ∀ f : ℕ → ℝ, ∃ r, reweight (fun x : ℕ => (.fin (f x), 1)) none exSample = .ok r := by
    intro f
    obtain ⟨M, -, -, h, -⟩ := C30_reweight_partial (P := ℕ) (fun x => (.fin (f x), 1)) f (fun x => .inl rfl) none exSample
      [(0, 3, 1), (1, 4, 2)] ⟨rfl, rfl, .inl rfl⟩ (by simp) [(0, 3, 1), (1, 4, 2)] (by simp) (by simp)
    exact ⟨_, h⟩
  obtain ⟨r1, h1⟩ := R fun x => 5 * x
  obtain ⟨r2, h2⟩ := R fun x => x
  have e1 : (⟨some exSample, none, false⟩ : Mc ℕ).reweight (fun x : ℕ => (.fin (5 * x : ℝ), 1)) none = .ok ⟨some exSample, some r1, true⟩ := by
    unfold Mc.reweight; dsimp only; rw [h1]
  have e2 : (⟨some exSample, some r1, true⟩ : Mc ℕ).reweight (fun x : ℕ => (.fin (x : ℝ), 1)) none = .ok ⟨some exSample, some r2, true⟩ := by
    unfold Mc.reweight; dsimp only; rw [h2]
  refine ⟨_, _, e1, e2, (C30_last ⟨some exSample, none, false⟩ [(fun x : ℕ => (.fin (5 * x : ℝ), 1), none)] (fun x : ℕ => (.fin (x : ℝ), 1), none) _ _ ?_ e2).1⟩
  rw [List.foldlM_cons]
  dsimp only
  rw [e1]
  rfl

/-- What is shown after reweighting: the values of the new prediction. -/
example (m' : Mc ℕ) (h : ((⟨none, none, false⟩ : Mc ℕ).set (fun _ => (.fin 3, 1)) [0, 1] (some [1, 2])).reweight (fun x : ℕ => (.fin (x : ℝ), 1)) none = .ok m') :
    ∃ r, reweight (fun x : ℕ => (.fin (x : ℝ), 1)) none ⟨[0, 1], [.fin 3, .fin 3], [1, 1], some [1, 2]⟩ = .ok r ∧ m'.last = some (r.X, r.y, r.sigma, some r.w) :=
  (C30_shown _ _ _ _ _ _ _ h).2

end GPry.Nora
