import Verif.ProposalProps
import Verif.TruthProps
import Verif.ToolsProps
import Verif.BatchProps
import Verif.GprInv
import Verif.GprEx
import Mathlib.Data.List.Nodup
import Mathlib.Tactic.FieldSimp

set_option linter.all false

/-!
# More about definitions whose theorems left something open (C13, C40, C41, C44, C48, C58, C84)
-/

namespace GPry.Proposal

variable {K : Type*} [Field K] [LinearOrder K] [IsStrictOrderedRing K]

theorem gd {α : Type*} (l : List α) (i : ℕ) (d : α) (h : i < l.length) : l.getD i d = l[i] := by
  simp [h]

/-- What numpy guarantees of `choice` without replacement. -/
def ChoiceOk {G : Type*} (R : Rng K G) : Prop :=
  ∀ n m g, m ≤ n → (R.choice n m g).1.length = m ∧ (R.choice n m g).1.Nodup ∧ ∀ j ∈ (R.choice n m g).1, j < n

theorem pick_subperm (t : List (List K)) (js : List ℕ) (hnd : js.Nodup) (hlt : ∀ j ∈ js, j < t.length) :
    (js.map fun j => t.getD j []).Subperm t := by
  have h1 : js.Subperm (List.range t.length) := hnd.subperm fun j hj => List.mem_range.2 (hlt j hj)
  have h2 : (List.range t.length).map (fun j => t.getD j []) = t := by
    apply List.ext_getElem
    · simp
    · intro i h3 h4
      simp [h4]
  obtain ⟨l, hp, hs⟩ := h1
  refine ⟨l.map fun j => t.getD j [], hp.map _, ?_⟩
  have := hs.map fun j => t.getD j []
  rwa [h2] at this

/-- **C44**: what a centroid proposal is. It takes `d + 1` different points of the training set, all of them inside the bounds if there are
enough such points; every coordinate is the one of the centroid plus a multiple of the distance to one of these points (a different one for
every coordinate), clipped to the bounds. With fewer than `d + 1` points in the training set it raises. -/
theorem C44_centroids {G : Type*} (R : Rng K G) (hR : ChoiceOk R) (fuel : ℕ) (g : G) (b b0 : Box K) (t0 t0' : Option (List (List K)))
    (X : List (List K)) :
    (b.length < X.length → ∃ (x : List (Ext K)) (g' : G) (pts : List (List K)) (js : List ℕ) (es : List K),
      (((Proposer.centroids b0 t0 t0').update X).updateBounds b).get R fuel g = some (.ok x, g') ∧
      x.length = b.length ∧ pts.length = b.length + 1 ∧ pts.Subperm X ∧
      (b.length < (X.countP fun p => Tools.isInBounds (ext b) (p.map .fin)) → ∀ p ∈ pts, Tools.isInBounds (ext b) (p.map .fin) = true) ∧
      js.length = b.length ∧ js.Nodup ∧
      ∀ i < b.length, ∃ (q : K × K) (j : ℕ) (p : List K) (c : K), b[i]? = some q ∧ js[i]? = some j ∧ pts[j]? = some p ∧
        c * ((b.length : K) + 1) = (pts.map fun p => p.getD i 0).sum ∧
        x[i]? = some (.fin (min (max (c + (p.getD i 0 - c) * es.getD i 0) q.1) q.2))) ∧
    (X.length ≤ b.length → (((Proposer.centroids b0 t0 t0').update X).updateBounds b).get R fuel g = some (.error .valueError, g)) := by
  set X' := X.filter fun p => Tools.isInBounds (ext b) (p.map .fin) with hX'
  have hsub : X'.length ≤ X.length := List.length_filter_le _ _
  have hcount : (X.countP fun p => Tools.isInBounds (ext b) (p.map .fin)) = X'.length := List.countP_eq_length_filter
  constructor
  · intro hlen
    have hsubset : ∃ pts g1, subset R b.length (some X) (some X') g = (.ok pts, g1) ∧ pts.length = b.length + 1 ∧ pts.Subperm X ∧
        (b.length < X'.length → ∀ p ∈ pts, Tools.isInBounds (ext b) (p.map .fin) = true) := by
      unfold subset
      by_cases h : b.length + 1 ≤ X'.length
      · obtain ⟨h1, h2, h3⟩ := hR X'.length (b.length + 1) g h
        have hsp := pick_subperm X' _ h2 h3
        refine ⟨(R.choice X'.length (b.length + 1) g).1.map fun j => X'.getD j [], (R.choice X'.length (b.length + 1) g).2, by simp only [h, if_true], by simpa using h1, hsp.trans List.filter_sublist.subperm, ?_⟩
        intro _ p hp
        have := hsp.subset hp
        rw [hX', List.mem_filter] at this
        exact this.2
      · obtain ⟨h1, h2, h3⟩ := hR X.length (b.length + 1) g (by omega)
        refine ⟨(R.choice X.length (b.length + 1) g).1.map fun j => X.getD j [], (R.choice X.length (b.length + 1) g).2, by simp only [h, if_false]; rw [if_pos (by omega)], by simpa using h1, pick_subperm X _ h2 h3, ?_⟩
        intro h4; omega
    obtain ⟨pts, g1, hs, hl, hsp, hin⟩ := hsubset
    obtain ⟨h1, h2, h3⟩ := hR (b.length + 1) b.length g1 (by omega)
    refine ⟨((List.range b.length).map fun i =>
        centroidCoord pts i ((R.choice (b.length + 1) b.length g1).1.getD i 0)
          ((R.expon b.length (R.choice (b.length + 1) b.length g1).2).1.getD i 0) (b.getD i (0, 0))).map .fin,
      (R.expon b.length (R.choice (b.length + 1) b.length g1).2).2, pts,
      (R.choice (b.length + 1) b.length g1).1, (R.expon b.length (R.choice (b.length + 1) b.length g1).2).1, ?_, by simp, hl, hsp,
      by rw [hcount]; exact hin, h1, h2, ?_⟩
    · simp only [Proposer.update, Proposer.updateBounds, Proposer.get, ← hX', hs]
    · intro i hi
      have hij : i < (R.choice (b.length + 1) b.length g1).1.length := by omega
      have hj := h3 _ (List.getElem_mem hij)
      refine ⟨b[i], (R.choice (b.length + 1) b.length g1).1[i], pts[(R.choice (b.length + 1) b.length g1).1[i]]'(by omega),
        (column i pts).sum / (pts.length : K), by simp [hi], by simp [hij], by simp [hl, hj], ?_, ?_⟩
      · rw [hl]
        have : ((b.length : K) + 1) ≠ 0 := by positivity
        push_cast
        rw [div_mul_cancel₀ _ this]
        rfl
      · simp only [List.getElem?_map, List.getElem?_range hi, Option.map_some, centroidCoord, clip]
        rw [gd _ _ _ hij, gd _ _ _ hi, gd pts _ [] (by omega)]
  · intro hlen
    have : subset R b.length (some X) (some X') g = (.error .valueError, g) := by
      unfold subset
      simp only
      rw [if_neg (by omega), if_neg (by omega)]
    simp only [Proposer.update, Proposer.updateBounds, Proposer.get, ← hX', this]

/-- a generator that always chooses the first ones -/
def exRng2 : Rng ℚ Unit := ⟨fun _ _ => ([], ()), fun n _ => (List.replicate n (1 / 2), ()), fun _ => (1, ()), fun _ m _ => (List.range m, ()),
  fun n _ => (List.replicate n 2, ())⟩

example : ChoiceOk exRng2 ∧ (((Proposer.centroids [] none none).update [[9], [0], [4], [3]]).updateBounds [(0, 5)]).get exRng2 1 () =
    some (.ok [.fin 0], ()) ∧
    (((Proposer.centroids [] none none).update [[9], [3], [4]]).updateBounds [(0, 5)]).get exRng2 1 () = some (.ok [.fin (5 / 2)], ()) := by
  refine ⟨fun n m g h => ⟨by simp [exRng2], by simp [exRng2, List.nodup_range], fun j hj => ?_⟩, by decide +kernel, by decide +kernel⟩
  simp [exRng2] at hj
  omega

theorem exRng2_ok : ChoiceOk exRng2 := fun n m g h => ⟨by simp [exRng2], by simp [exRng2, List.nodup_range], fun j hj => by
  simp [exRng2] at hj
  omega⟩

/-- Two points in a box of dimension one. -/
example : ∃ (x : List (Ext ℚ)) (g' : Unit), (((Proposer.centroids [] none none).update [[9], [0], [4], [3]]).updateBounds [(0, 5)]).get exRng2 1 () = some (.ok x, g') ∧
    x.length = 1 := by
  obtain ⟨x, g', pts, js, es, h, hl, -⟩ := (C44_centroids exRng2 exRng2_ok 1 () [(0, 5)] [] none none [[9], [0], [4], [3]]).1 (by decide)
  exact ⟨x, g', h, hl⟩

end GPry.Proposal

namespace GPry.Truth

/-- **C41**: a function of `r` parameters and `o` more with defaults can be called with `n` coordinates exactly if `r <= n <= r + o`. -/
theorem C41_defaults (r o n : ℕ) : accepts (List.replicate r ⟨.posOrKw, false⟩ ++ List.replicate o ⟨.posOrKw, true⟩) n = true ↔
    r ≤ n ∧ n ≤ r + o := by
  have h1 : ∀ (k : ℕ) (d : Bool), (List.replicate k (⟨.posOrKw, d⟩ : Param)).filter isPositional = List.replicate k ⟨.posOrKw, d⟩ := by
    intro k d; rw [List.filter_replicate]; rfl
  have h2 : ∀ (k : ℕ) (d : Bool), (List.replicate k (⟨.posOrKw, d⟩ : Param)).filter (fun p => isPositional p && !p.hasDefault) =
      if d then [] else List.replicate k ⟨.posOrKw, d⟩ := by
    intro k d; rw [List.filter_replicate]; cases d <;> rfl
  have h3 : ∀ (k : ℕ) (d : Bool), (List.replicate k (⟨.posOrKw, d⟩ : Param)).any (fun p => decide (p.kind = .kwOnly) && !p.hasDefault) = false := by
    intro k d; rw [List.any_eq_false]; intro p hp; rw [List.eq_of_mem_replicate hp]; simp
  have h4 : ∀ (k : ℕ) (d : Bool), (List.replicate k (⟨.posOrKw, d⟩ : Param)).any (fun p => decide (p.kind = .varPos)) = false := by
    intro k d; rw [List.any_eq_false]; intro p hp; rw [List.eq_of_mem_replicate hp]; simp
  simp only [accepts, nArgs, hasVarPos, List.filter_append, List.any_append, h1, h2, h3, h4, List.length_append, List.length_replicate]
  simp
  omega

example : accepts [⟨.posOrKw, false⟩, ⟨.posOrKw, false⟩, ⟨.posOrKw, true⟩] 2 = true := by decide

end GPry.Truth

namespace GPry.Tools

/-- **C48**: a number that is not finite cannot be made an integer: `ValueError` for NaN, `OverflowError` for infinities; as a float it is
returned. -/
theorem C48_not_finite {K : Type*} [Field K] [LinearOrder K] [IsStrictOrderedRing K] [DecidableEq K] (parse : List Char → Option (Ext K)) (pow : Ext K → Ext K)
    (letter : Char) (X : Ext K) (trunc : K → K) :
    getXnumber parse pow letter X true trunc (.num .nan) = .error .valueError ∧
    getXnumber parse pow letter X true trunc (.num .posInf) = .error .overflowError ∧
    getXnumber parse pow letter X true trunc (.num .negInf) = .error .overflowError ∧
    ∀ v, v.isFinite = false → getXnumber parse pow letter X false trunc (.num v) = .ok v := by
  refine ⟨rfl, ?_, ?_, ?_⟩
  · simp [getXnumber, mulE, toDtype]
  · simp [getXnumber, mulE, toDtype]
  · intro v hv
    cases v <;> simp_all [getXnumber, mulE, toDtype, Ext.isFinite]

example : getXnumber (K := ℚ) (fun _ => none) id 'd' (.fin 4) true id (.num .nan) = .error .valueError ∧
    getXnumber (K := ℚ) (fun _ => none) id 'd' (.fin 4) false id (.num .negInf) = .ok .negInf :=
  ⟨(C48_not_finite _ _ _ _ _).1, (C48_not_finite _ _ _ _ id).2.2.2 _ rfl⟩

end GPry.Tools

namespace GPry.Gpr

variable {P PX Θ K : Type} [Field K] [LinearOrder K] [IsStrictOrderedRing K]

theorem append_noise {cfg : Cfg P PX Θ K} {st st' : State P PX Θ K} {c : Call P K} (h : append cfg st c = (st', none)) :
    ∃ nz, validateNoise st.noise c.noise c.ys.length = .ok nz ∧ updateNoise st.noise nz (st.yAll ++ c.ys).length = .ok st'.noise := by
  obtain ⟨_, nz, noise, thrKeep, mask, h1, h2, _, hmid⟩ := append_ok h
  obtain ⟨_, py, yAll', noise', svm, lastMask, _, _, _, _, _, hst⟩ := appendMid_ok hmid
  refine ⟨nz, h1, ?_⟩
  have : st'.noise = noise := by
    rcases hst with ⟨_, _, hst⟩ | ⟨_, hst⟩
    · rw [hst]
    · exact (appendFit_ok hst).2.2.2.2.1
  rw [this]; exact h2

/-- **C13**: a scalar noise level passed to a regressor with a scalar noise level replaces it exactly if it differs from it by more than
1e-8 plus 1e-5 of the current value. -/
theorem C13_scalar_noise {cfg : Cfg P PX Θ K} {st st' : State P PX Θ K} {c : Call P K} (h : append cfg st c = (st', none)) (s k : K)
    (hs : st.noise = .scalar s) (hk : c.noise = some (.scalar k)) :
    (|k - s| ≤ 1 / 10 ^ 8 + |s| / 10 ^ 5 → st'.noise = .scalar s) ∧ (1 / 10 ^ 8 + |s| / 10 ^ 5 < |k - s| → st'.noise = .scalar k) := by
  obtain ⟨nz, h1, h2⟩ := append_noise h
  have hnz : nz = some (.scalar k) := by
    rw [hs, hk] at h1
    unfold validateNoise at h1
    split_ifs at h1
    cases h1; rfl
  subst hnz
  rw [hs] at h2
  simp only [updateNoise, Except.ok.injEq] at h2
  have hc : (isClose k s = true) ↔ |k - s| ≤ 1 / 10 ^ 8 + |s| / 10 ^ 5 := by
    unfold isClose
    rw [decide_eq_true_iff]
    have e1 : (1 : K) / 100000000 + 1 / 100000 * |s| = 1 / 10 ^ 8 + |s| / 10 ^ 5 := by
      norm_num
      ring
    rw [e1]
  constructor
  · intro hle
    rw [if_pos (hc.2 hle)] at h2
    exact h2.symm
  · intro hlt
    rw [if_neg (fun hcl => absurd (hc.1 hcl) (not_le.2 hlt))] at h2
    exact h2.symm

example : (append (exCfg true) ex0 { callA with noise := some (.scalar 7) }).1.noise = .scalar 7 :=
  (C13_scalar_noise (c := { callA with noise := some (.scalar 7) }) (Prod.ext rfl (by decide +kernel)) 1 7 rfl rfl).2 (by norm_num [abs_of_pos])

/-- **C10**: before the classifier is trained for the first time, asking for the infinite part of the training set raises `TypeError`. -/
theorem C10_untrained_infinite {cfg : Cfg P PX Θ K} (px : PX) (py : PreY K) (noise : Noise K) {st' : State P PX Θ K} {c : Call P K}
    (hu : cfg.useSvm = true) (hno : (c.fitClf || c.fit != .no) = false) (hx : c.xs ≠ [])
    (h : append cfg (State.init px py noise) c = (st', none)) : trainInfinite cfg st' = .error .typeError := by
  obtain ⟨_, nz, noise, thrKeep, mask, _, _, _, hmid⟩ := append_ok h
  obtain ⟨_, py, yAll', noise', svm, lastMask, _, _, _, hsvm, _, hst⟩ := appendMid_ok hmid
  rw [if_neg (by rw [hno]; simp)] at hsvm
  have : st'.svm = Svm.init ∧ st'.xAll = c.xs := by
    rcases hst with ⟨_, _, hst⟩ | ⟨_, hst⟩
    · rw [hst]; exact ⟨hsvm, rfl⟩
    · have := appendFit_ok hst
      exact ⟨this.2.2.2.2.2.1.trans hsvm, this.1⟩
  unfold trainInfinite
  rw [if_pos hu, this.1, this.2, if_pos ⟨rfl, rfl, hx⟩]

/-- A batch without finite points. -/
example : trainInfinite (exCfg true) (append (exCfg true) ex0 { callQuick with batch := some ([5], [.negInf]) }).1 = .error .typeError :=
  C10_untrained_infinite () (.aff 0 1) (.scalar 1) rfl (c := { callQuick with batch := some ([5], [.negInf]) }) rfl (by decide)
    (Prod.ext rfl (by decide +kernel : (append (exCfg true) ex0 { callQuick with batch := some ([5], [.negInf]) }).2 = none))

end GPry.Gpr

namespace GPry.Batch

variable {P PX Θ K : Type} [Field K] [LinearOrder K] [IsStrictOrderedRing K]

/-- **C58**: the noise level of a lie is the mean of those of the data, which are kept; a common noise level is kept. -/
theorem C58_lie_noise {cfg : Gpr.Cfg P PX Θ K} {st st' : Gpr.State P PX Θ K} (x : P) (lie : Ext K)
    (h : Gpr.append cfg st (lieCall st x lie) = (st', none)) :
    (∀ s, st.noise = .scalar s → st'.noise = .scalar s) ∧
    (∀ ks, st.noise = .array ks → ks ≠ [] → ∃ v, st'.noise = .array (ks ++ [v]) ∧ v * ks.length = ks.sum) := by
  obtain ⟨nz, h1, h2⟩ := Gpr.append_noise h
  constructor
  · intro s hs
    simp only [lieCall, hs, Gpr.validateNoise, Option.isSome_none, Bool.false_eq_true, and_false, if_false, Except.ok.injEq] at h1
    subst h1
    rw [hs] at h2
    simp only [Gpr.updateNoise, Except.ok.injEq] at h2
    exact h2.symm
  · intro ks hks hne
    have hn : (lieCall st x lie).noise = some (.array [ks.sum / (ks.length : K)]) := by simp [lieCall, hks]
    have hy : (lieCall st x lie).ys = [lie] := rfl
    rw [hn, hy, hks] at h1
    simp only [Gpr.validateNoise, List.length_singleton, one_ne_zero, false_and, if_false, ne_eq, not_true_eq_false, Except.ok.injEq] at h1
    subst h1
    rw [hks] at h2
    simp only [Gpr.updateNoise, Except.ok.injEq] at h2
    have hl : (ks.length : K) ≠ 0 := by
      rw [Nat.cast_ne_zero]; simpa using hne
    exact ⟨_, h2.symm, div_mul_cancel₀ _ hl⟩

example : (Gpr.append (Gpr.exCfg true) Gpr.exSt (lieCall Gpr.exSt 9 (.fin 1))).1.noise = .scalar 1 :=
  (C58_lie_noise (cfg := Gpr.exCfg true) (st := Gpr.exSt) 9 (.fin 1) (Prod.ext rfl (by decide +kernel))).1 1 (by decide +kernel)

end GPry.Batch

namespace GPry.Truth

theorem dictSet_keys (l : List (String × String)) (q : String × String) (hl : (l.map Prod.fst).Nodup) :
    ((dictSet l q).map Prod.fst).Nodup := by
  unfold dictSet
  split_ifs with h
  · have : (l.map fun r => if r.1 = q.1 then (r.1, q.2) else r).map Prod.fst = l.map Prod.fst := by
      rw [List.map_map]
      refine List.map_congr_left fun r _ => ?_
      simp only [Function.comp]
      split_ifs <;> rfl
    rw [this]; exact hl
  · rw [List.map_append]
    refine List.nodup_append.2 ⟨hl, by simp, ?_⟩
    intro a ha b hb hab
    simp at hb
    subst hb
    subst hab
    exact h ha

theorem dictSet_mem (l : List (String × String)) (q r : String × String) :
    r ∈ dictSet l q ↔ r = q ∨ (r ∈ l ∧ r.1 ≠ q.1) := by
  unfold dictSet
  split_ifs with h
  · rw [List.mem_map]
    constructor
    · rintro ⟨p, hp, rfl⟩
      split_ifs with he
      · left; rw [he]
      · right; exact ⟨hp, he⟩
    · rintro (rfl | ⟨hr, hne⟩)
      · obtain ⟨p, hp, he⟩ := List.mem_map.1 h
        exact ⟨p, hp, by rw [if_pos he, he]⟩
      · exact ⟨r, hr, by rw [if_neg hne]⟩
  · rw [List.mem_append, List.mem_singleton]
    constructor
    · rintro (hr | rfl)
      · exact .inr ⟨hr, fun he => h (he ▸ List.mem_map_of_mem hr)⟩
      · exact .inl rfl
    · rintro (rfl | hr)
      · exact .inr rfl
      · exact .inl hr.1

/-- **C84**: the mapping from names to labels that is saved has each name once, with the last of its labels. -/
theorem C84_dict (l : List (String × String)) : ((pyDict l).map Prod.fst).Nodup ∧
    ∀ q, q ∈ pyDict l ↔ ∃ l₁ l₂, l = l₁ ++ q :: l₂ ∧ ∀ r ∈ l₂, r.1 ≠ q.1 := by
  induction l using List.reverseRecOn with
  | nil => simp [pyDict]
  | append_singleton l q ih =>
    have e : pyDict (l ++ [q]) = dictSet (pyDict l) q := by simp [pyDict]
    rw [e]
    refine ⟨dictSet_keys _ _ ih.1, fun r => ?_⟩
    rw [dictSet_mem, ih.2]
    constructor
    · rintro (rfl | ⟨⟨l₁, l₂, rfl, h⟩, hne⟩)
      · exact ⟨l, [], rfl, by simp⟩
      · refine ⟨l₁, l₂ ++ [q], by simp, ?_⟩
        intro s hs
        rcases List.mem_append.1 hs with hs | hs
        · exact h s hs
        · rw [List.mem_singleton.1 hs]; exact fun h => hne h.symm
    · rintro ⟨l₁, l₂, h, hl⟩
      rcases List.eq_nil_or_concat l₂ with rfl | ⟨l₃, s, rfl⟩
      · left
        have := List.append_inj' h (by simp)
        simpa using this.2.symm
      · right
        rw [List.concat_eq_append] at h hl
        have h' : l ++ [q] = (l₁ ++ r :: l₃) ++ [s] := by simpa using h
        have := List.append_inj' h' (by simp)
        have hqs : q = s := by simpa using this.2
        exact ⟨⟨l₁, l₃, this.1, fun t ht => hl t (by simp [ht])⟩, fun h => hl s (by simp) (by rw [← hqs]; exact h.symm)⟩

example : pyDict [("a", "x"), ("b", "y"), ("a", "z")] = [("a", "z"), ("b", "y")] := by decide

/-- The interval is not empty and reaches infinity on at least one side. -/
def Unbounded (b : Ext ℝ × Ext ℝ) : Prop := (b.1 = .negInf ∧ (b.2 = .posInf ∨ ∃ v, b.2 = .fin v)) ∨ ((∃ v, b.1 = .fin v) ∧ b.2 = .posInf)

theorem sum_posInf (l : List (Ext ℝ)) (h : ∀ x ∈ l, x = .posInf ∨ ∃ v, x = .fin v) (hp : .posInf ∈ l) : l.foldr add (.fin 0) = .posInf := by
  have key : ∀ l : List (Ext ℝ), (∀ x ∈ l, x = .posInf ∨ ∃ v, x = .fin v) → (∃ v, l.foldr add (.fin 0) = .fin v) ∨ l.foldr add (.fin 0) = .posInf := by
    intro l
    induction l with
    | nil => intro _; exact .inl ⟨0, rfl⟩
    | cons x l ih =>
      intro h
      rw [List.foldr_cons]
      rcases ih (fun y hy => h y (List.mem_cons_of_mem _ hy)) with ⟨v, hv⟩ | hv <;> rw [hv] <;>
        rcases h x (List.mem_cons_self) with rfl | ⟨w, rfl⟩
      · exact .inr rfl
      · exact .inl ⟨w + v, rfl⟩
      · exact .inr rfl
      · exact .inr rfl
  induction l with
  | nil => cases hp
  | cons x l ih =>
    rw [List.foldr_cons]
    have hl := fun y hy => h y (List.mem_cons_of_mem x hy)
    rcases List.mem_cons.1 hp with hx | hx
    · rw [← hx]
      rcases key l hl with ⟨v, hv⟩ | hv <;> rw [hv] <;> rfl
    · rw [ih hl hx]
      rcases h x (List.mem_cons_self) with rfl | ⟨w, rfl⟩ <;> rfl

/-- **C40** is false as soon as one of the bounds is infinite, whatever their number: the likelihood is never evaluated, and the log-posterior is
minus infinity at every point. -/
theorem C40_unbounded_counterexample (t : Truth) (hb : ∀ b ∈ t.bounds, Unbounded b ∨ ∃ v w, b = (.fin v, .fin w) ∧ v < w)
    (hu : ∃ b ∈ t.bounds, Unbounded b) (x : List (Ext ℝ)) : logp t x = ([], .ok .negInf) := by
  have h1 : ∀ b, Unbounded b → log (b.2.sub b.1) = .posInf := by
    rintro ⟨a, b⟩ (⟨ha, hb | ⟨v, hb⟩⟩ | ⟨⟨v, ha⟩, hb⟩) <;> dsimp only at ha hb <;> rw [ha, hb] <;> rfl
  have hv : logPriorVolume t = .posInf := by
    refine sum_posInf _ ?_ ?_
    · intro y hy
      obtain ⟨b, hbm, rfl⟩ := List.mem_map.1 hy
      rcases hb b hbm with h | ⟨v, w, rfl, hvw⟩
      · exact .inl (h1 b h)
      · right
        refine ⟨Real.log (w - v), ?_⟩
        show log (.fin (w - v)) = _
        unfold log
        dsimp only
        rw [if_pos (by linarith)]
    · obtain ⟨b, hbm, h⟩ := hu
      exact List.mem_map.2 ⟨b, hbm, h1 b h⟩
  have hlp : logprior t x = .negInf := by
    unfold logprior
    rw [hv]
    split_ifs <;> rfl
  unfold logp
  dsimp only
  rw [hlp, if_pos rfl]

/-- C40: the plane, with a bound on one side of one coordinate only. -/
example (f : Fun (Ext ℝ) (Ext ℝ)) : logp ⟨[(.negInf, .posInf), (.fin 0, .posInf), (.fin 0, .fin 1)], f⟩ [.fin 1, .fin 1, .fin (1 / 2)] = ([], .ok .negInf) := by
  refine C40_unbounded_counterexample _ ?_ ⟨_, List.mem_cons_self, .inl ⟨rfl, .inl rfl⟩⟩ _
  intro b hb
  simp only [List.mem_cons, List.not_mem_nil, or_false] at hb
  rcases hb with rfl | rfl | rfl
  · exact .inl (.inl ⟨rfl, .inl rfl⟩)
  · exact .inl (.inr ⟨⟨0, rfl⟩, rfl⟩)
  · exact .inr ⟨0, 1, rfl, by norm_num⟩

end GPry.Truth

namespace GPry.Truth

/-- **C41** is false of functions with a variable number of arguments: `f(x, *rest)` can be called with any number of coordinates (at least one) and
`f(*x)` with any, but both are refused in two or more dimensions. -/
theorem C41_varargs_counterexample {V R : Type*} (b : List (Arg V) → Except Err R) (d : ℕ) (hd : 2 ≤ d) (x : List V) (hx : x.length = d) :
    ((⟨[⟨.posOrKw, false⟩, ⟨.varPos, false⟩], b⟩ : Fun V R).call (x.map .num) = b (x.map .num) ∧
      wrapLikelihood (⟨[⟨.posOrKw, false⟩, ⟨.varPos, false⟩], b⟩ : Fun V R) d = .error .valueError) ∧
    ((⟨[⟨.varPos, false⟩], b⟩ : Fun V R).call (x.map .num) = b (x.map .num) ∧
      wrapLikelihood (⟨[⟨.varPos, false⟩], b⟩ : Fun V R) d = .error .valueError) := by
  refine ⟨⟨?_, ?_⟩, ⟨?_, ?_⟩⟩
  · unfold Fun.call
    rw [if_pos]
    simp only [accepts, hasVarPos, List.any_cons, List.any_nil, List.length_map, hx, isPositional, List.filter_cons, List.filter_nil]
    simp
    omega
  · rw [C41_refused]
    refine ⟨?_, ?_, fun _ => ⟨⟨.varPos, false⟩, by simp, .inl rfl⟩⟩
    · show 1 ≠ d; omega
    · show 1 + 0 ≠ d; omega
  · unfold Fun.call
    rw [if_pos]
    simp [accepts, hasVarPos, isPositional]
  · rw [C41_refused]
    refine ⟨?_, ?_, fun _ => ⟨⟨.varPos, false⟩, by simp, .inl rfl⟩⟩
    · show 0 ≠ d; omega
    · show 0 + 0 ≠ d; omega

example : ((⟨[⟨.varPos, false⟩], fun a => .ok a.length⟩ : Fun ℤ ℕ).call [.num 1, .num 2]) = .ok 2 := rfl

end GPry.Truth

namespace GPry.Gpr

variable {K : Type*} [Field K] [LinearOrder K] {P PX Θ : Type*}

theorem updateModel_fin {cfg : Cfg P PX Θ K} {st st' : State P PX Θ K} (h : updateModel cfg st = (st', none)) (hn : 0 < st.newly) :
    (∀ v ∈ st'.noiseVar, v.isFinite = true) ∧ ∀ v ∈ st'.yTrain', v.isFinite = true := by
  unfold updateModel at h
  rw [if_neg (by omega)] at h
  split at h
  · simp at h
  · split at h
    · simp at h
    · rename_i hf
      split at h
      · simp at h
      · obtain rfl := (Prod.mk.inj h).1
        simp only [Bool.not_eq_true', Bool.not_eq_false, Bool.and_eq_true, List.all_eq_true] at hf
        exact hf

theorem fitHyper_fin {cfg : Cfg P PX Θ K} {n : Option ℕ} {st st' : State P PX Θ K} (h : fitHyper cfg n st = (st', none)) (hn : 0 < st.newly) :
    (∀ v ∈ st'.noiseVar, v.isFinite = true) ∧ ∀ v ∈ st'.yTrain', v.isFinite = true := by
  unfold fitHyper at h
  dsimp only at h
  split at h
  · split at h
    · simp at h
    · exact updateModel_fin h hn
  · split at h
    · simp at h
    · split at h
      · simp at h
      · rename_i st1 heq
        obtain rfl := (Prod.mk.inj h).1
        have := updateModel_fin heq (by exact hn)
        exact this

theorem appendFit_fin {cfg : Cfg P PX Θ K} {st st' : State P PX Θ K} {c : Call P K} {mask : List Bool}
    {noise' : List (Ext K)} (h : appendFit cfg st c mask noise' = (st', none)) (hn : 0 < st.nLastFinite) :
    (∀ v ∈ st'.noiseVar, v.isFinite = true) ∧ ∀ v ∈ st'.yTrain', v.isFinite = true := by
  unfold appendFit at h
  simp only at h
  split at h
  · simp at h
  · split at h
    · simp at h
    · split at h
      · exact fitHyper_fin h hn
      · exact updateModel_fin h hn

theorem mapE_mem {α β : Type*} (f : α → Except Err β) : ∀ (l : List α) (l' : List β), mapE f l = .ok l' → ∀ a ∈ l, ∃ b ∈ l', f a = .ok b
  | [], _, _, a, ha => by cases ha
  | x :: l, l', h, a, ha => by
    unfold mapE at h
    rcases hx : f x with e | b
    · rw [hx] at h; cases h
    · rw [hx] at h
      dsimp only at h
      rcases hl : mapE f l with e | bs
      · rw [hl] at h; cases h
      · rw [hl] at h
        cases h
        rcases List.mem_cons.1 ha with rfl | ha
        · exact ⟨b, List.mem_cons_self, hx⟩
        · obtain ⟨b', hb', he⟩ := mapE_mem f l bs hl a ha
          exact ⟨b', List.mem_cons_of_mem _ hb', he⟩

theorem transform_not_finite (py : PreY K) (y w : Ext K) (hy : y.isFinite = false) (h : py.transform y = .ok w) : w.isFinite = false := by
  cases py with
  | unfitted => cases h
  | nanAff => cases h; rfl
  | aff m s =>
    cases h
    cases y with
    | fin a => cases hy
    | nan => rfl
    | negInf => simp only [Ext.subFin, Ext.divFin]; split_ifs <;> rfl
    | posInf => simp only [Ext.subFin, Ext.divFin]; split_ifs <;> rfl

theorem maskL_true {α β : Type*} : ∀ (l : List β) (l' : List α), l.length = l'.length → maskL (l.map fun _ => true) l' = l'
  | [], [], _ => rfl
  | _ :: l, a :: l', h => by
    have := maskL_true l l' (by simpa using h)
    simp only [List.map_cons, maskL, this, if_true]

/-- **C10** without a classifier (`account_for_inf=None`): a call with a target that is not finite never succeeds. -/
theorem C10_no_classifier {cfg : Cfg P PX Θ K} (hu : cfg.useSvm = false) {st st' : State P PX Θ K} {c : Call P K}
    (h : append cfg st c = (st', none)) : ∀ y ∈ c.ys, y.isFinite = true := by
  intro y hy
  by_contra hc
  obtain ⟨-, nz, noise, thrKeep, mask, -, -, hm, hmid⟩ := append_ok h
  rw [hu, if_neg (by simp)] at hm
  obtain ⟨-, rfl⟩ := hm
  obtain ⟨hlen, py, yAll', noise', svm, lastMask, -, -, -, -, hlm, hcase⟩ := appendMid_ok hmid
  rw [hu, if_neg (by simp)] at hlm
  dsimp only at hlm hcase
  have hcount : lastMask.count true = c.ys.length := by rw [hlm, List.count_replicate_self]
  have hpos : 0 < c.ys.length := List.length_pos_of_mem hy
  rcases hcase with ⟨h0, -⟩ | ⟨-, hfit⟩
  · omega
  · have hok := appendFit_ok hfit
    have hfin := appendFit_fin hfit (by show 0 < lastMask.count true; omega)
    obtain ⟨-, -, -, -, -, -, -, -, -, hyT, -, htr, -⟩ := hok
    have hmem : y ∈ st'.yTrain := by
      rw [hyT]
      show y ∈ maskL _ (st.yAll ++ c.ys)
      rw [maskL_true _ _ rfl]
      exact List.mem_append.2 (.inr hy)
    obtain ⟨w, hw, he⟩ := mapE_mem _ _ _ htr y hmem
    have := transform_not_finite _ y w (by simpa using hc) he
    rw [hfin.2 w hw] at this
    cases this

example (st' : State ℕ Unit ℕ ℚ) : append (exCfg false) ex0 callA ≠ (st', none) := fun h => by
  have := C10_no_classifier rfl h .negInf (by simp [Call.ys, callA])
  cases this

/-- **C13**: the model is never updated with noise that is not finite. -/
theorem C13_noise_finite {cfg : Cfg P PX Θ K} {st st' : State P PX Θ K} {c : Call P K} (h : append cfg st c = (st', none))
    (hn : 0 < st'.nLastFinite) : ∀ v ∈ st'.noiseVar, v.isFinite = true := by
  obtain ⟨-, nz, noise, thrKeep, mask, -, -, hm, hmid⟩ := append_ok h
  obtain ⟨hlen, py, yAll', noise', svm, lastMask, -, -, -, -, hlm, hcase⟩ := appendMid_ok hmid
  dsimp only at hlm hcase
  rcases hcase with ⟨h0, -, rfl⟩ | ⟨-, hfit⟩
  · exact absurd h0 (by dsimp only at hn; omega)
  · have hok := appendFit_ok hfit
    obtain ⟨-, -, -, -, -, -, -, hnl, -⟩ := hok
    dsimp only at hnl
    exact (appendFit_fin hfit (by show 0 < lastMask.count true; omega)).1

/-- C10, C13: one finite target without a classifier, and one that is not. -/
example : (append (exCfg false) ex0 { batch := some ([1], [.fin 2]) }).2 = none ∧
    (append (exCfg false) ex0 { batch := some ([1, 2], [.fin 2, .negInf]) }).2 = some .valueError := by decide +kernel

end GPry.Gpr
