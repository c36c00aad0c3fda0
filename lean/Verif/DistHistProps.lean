import Verif.DistHist
import Verif.CredProps

set_option linter.all false

/-!
# Theorems about the histogram of distances (C129)
-/

namespace GPry.DistHist

open GPry.Cred MeasureTheory

theorem foldl_max (rs : List ℝ) : ∀ a : ℝ, a ≤ rs.foldl max a ∧ (∀ r ∈ rs, r ≤ rs.foldl max a) ∧ (rs.foldl max a = a ∨ rs.foldl max a ∈ rs) := by
  induction rs with
  | nil => intro a; simp
  | cons b rs ih =>
    intro a
    obtain ⟨h1, h2, h3⟩ := ih (max a b)
    rw [List.foldl_cons]
    refine ⟨le_trans (le_max_left a b) h1, ?_, ?_⟩
    · intro r hr
      rcases List.mem_cons.mp hr with rfl | hr
      · exact le_trans (le_max_right a r) h1
      · exact h2 r hr
    · rcases h3 with h3 | h3
      · rcases max_choice a b with e | e
        · left; rw [h3, e]
        · right; rw [h3, e]; exact List.mem_cons_self
      · right; exact List.mem_cons_of_mem _ h3

theorem maxOf_spec (rs : List ℝ) (m : ℝ) (hm : m ∈ rs) (h : ∀ r ∈ rs, r ≤ m) : maxOf rs = some m := by
  cases rs with
  | nil => cases hm
  | cons a rs =>
    rw [maxOf]
    obtain ⟨h1, h2, h3⟩ := foldl_max rs a
    congr 1
    apply le_antisymm
    · rcases h3 with h3 | h3
      · rw [h3]; exact h a List.mem_cons_self
      · exact h _ (List.mem_cons_of_mem _ h3)
    · rcases List.mem_cons.mp hm with rfl | hm
      · exact h1
      · exact h2 m hm

/-- In which bin a number is. -/
theorem binOf_iff (n : ℕ) (hn : 0 < n) (r : ℝ) (h0 : 0 ≤ r) (h1 : r ≤ n) (i : ℕ) :
    binOf n r = some i ↔ i < n ∧ (i : ℝ) ≤ r ∧ (r < i + 1 ∨ i + 1 = n) := by
  rw [binOf, if_neg (by push Not; exact ⟨h0, h1⟩)]
  by_cases e : r = n
  · rw [if_pos e]
    subst e
    constructor
    · intro h
      injection h with h
      refine ⟨by omega, ?_, Or.inr (by omega)⟩
      exact_mod_cast (by omega : i ≤ n)
    · rintro ⟨h1, h2, h3⟩
      rcases h3 with h3 | h3
      · have : n < i + 1 := by exact_mod_cast h3
        omega
      · congr 1; omega
  · rw [if_neg e]
    have hlt : r < n := lt_of_le_of_ne h1 e
    constructor
    · intro h
      injection h with h
      subst h
      refine ⟨(Nat.floor_lt h0).mpr hlt, Nat.floor_le h0, Or.inl (Nat.lt_floor_add_one r)⟩
    · rintro ⟨h1, h2, h3⟩
      congr 1
      rw [Nat.floor_eq_iff h0]
      refine ⟨h2, ?_⟩
      rcases h3 with h3 | h3
      · exact h3
      · have : ((i + 1 : ℕ) : ℝ) = n := by rw [h3]
        push_cast at this
        rw [this]; exact hlt

theorem height_ones (n : ℕ) (rs : List ℝ) (i : ℕ) : height n (rs.map fun r => (r, 1)) i = (rs.countP fun r => decide (binOf n r = some i) : ℕ) := by
  induction rs with
  | nil => simp [height]
  | cons r rs ih =>
    rw [List.countP_cons, Nat.cast_add, ← ih]
    simp only [height, List.map_cons, List.filter_cons]
    by_cases h : binOf n r = some i
    · simp [h, add_comm]
    · simp [h]

/-- Nothing is lost. -/
theorem sum_count (n : ℕ) (hn : 0 < n) (rs : List ℝ) (h : ∀ r ∈ rs, 0 ≤ r ∧ r ≤ n) :
    ((List.range n).map fun i => (rs.countP fun r => decide (binOf n r = some i))).sum = rs.length := by
  induction rs with
  | nil => simp
  | cons r rs ih =>
    have e : ((List.range n).map fun i => ((r :: rs).countP fun r => decide (binOf n r = some i))).sum =
        ((List.range n).map fun i => (rs.countP fun r => decide (binOf n r = some i))).sum +
        ((List.range n).map fun i => if binOf n r = some i then 1 else 0).sum := by
      rw [← List.sum_map_add]
      congr 1
      refine List.map_congr_left fun i _ => ?_
      rw [List.countP_cons]
      simp
    rw [e, ih fun x hx => h x (List.mem_cons_of_mem _ hx), List.length_cons]
    congr 1
    obtain ⟨h0, h1⟩ := h r List.mem_cons_self
    obtain ⟨j, hj⟩ : ∃ j, binOf n r = some j := by
      rw [binOf, if_neg (by push Not; exact ⟨h0, h1⟩)]
      by_cases e : r = n
      · exact ⟨_, if_pos e⟩
      · exact ⟨_, if_neg e⟩
    have hjn := ((binOf_iff n hn r h0 h1 j).mp hj).1
    rw [hj]
    have : ((List.range n).map fun i => if some j = some i then 1 else 0).sum = ∑ i ∈ Finset.range n, if j = i then 1 else 0 := by
      rw [Finset.sum_range, ← List.sum_ofFn, List.ofFn_eq_map, ← List.map_coe_finRange_eq_range, List.map_map]
      congr 1
      refine List.map_congr_left fun i _ => ?_
      simp
    rw [this, Finset.sum_ite_eq]
    simp [hjn]

/-- **C129**, number of points. One bar for each unit of distance up to the largest one, whose height is the number of points in it; only the last bar
includes its upper end; the heights add up to the number of points. -/
theorem C129_number (dim : ℕ) (rs : List ℝ) (m : ℝ) (hm : m ∈ rs) (hpos : 0 < m) (h0 : ∀ r ∈ rs, 0 ≤ r) (hle : ∀ r ∈ rs, r ≤ m) :
    ∃ hs : List ℕ, bars dim false rs = .ok (hs.map fun k : ℕ => (k : ℝ)) ∧ (m ≤ hs.length ∧ (hs.length : ℝ) < m + 1) ∧ hs.sum = rs.length ∧
      ∀ i (hi : i < hs.length), hs[i] = rs.countP fun r => decide ((i : ℝ) ≤ r ∧ (r < i + 1 ∨ i + 1 = hs.length)) := by
  have hn : 0 < nBins m := Nat.ceil_pos.mpr hpos
  have hb : ∀ r ∈ rs, 0 ≤ r ∧ r ≤ (nBins m : ℝ) := fun r hr => ⟨h0 r hr, le_trans (hle r hr) (Nat.le_ceil m)⟩
  refine ⟨(List.range (nBins m)).map fun i => rs.countP fun r => decide (binOf (nBins m) r = some i), ?_, ?_, ?_, ?_⟩
  · rw [bars, prepare, maxOf_spec rs m hm hle]
    simp only [Bool.false_eq_true, if_false, List.map_map]
    congr 1
    refine List.map_congr_left fun i _ => ?_
    exact height_ones _ _ _
  · simp only [List.length_map, List.length_range]
    exact ⟨Nat.le_ceil m, Nat.ceil_lt_add_one hpos.le⟩
  · exact sum_count _ hn rs hb
  · intro i hi
    simp only [List.length_map, List.length_range] at hi ⊢
    rw [List.getElem_map, List.getElem_range]
    refine List.countP_congr fun r hr => ?_
    rw [decide_eq_true_eq, decide_eq_true_eq, binOf_iff _ hn r (hb r hr).1 (hb r hr).2]
    simp [hi]

/-- The weights exist if and only if all distances are below the last edge. -/
theorem weights_ok (vols : List ℝ) : ∀ rs : List ℝ, (∀ r ∈ rs, ⌊r⌋₊ < vols.length) →
    densityWeights vols rs = .ok (rs.map fun r => 1 / (vols[⌊r⌋₊]?).getD 0)
  | [], _ => rfl
  | r :: rs, h => by
    rw [densityWeights, List.getElem?_eq_getElem (h r List.mem_cons_self)]
    simp only
    rw [weights_ok vols rs fun x hx => h x (List.mem_cons_of_mem _ hx)]
    simp only [List.map_cons]
    rw [List.getElem?_eq_getElem (h r List.mem_cons_self)]
    rfl

theorem weights_error (vols : List ℝ) : ∀ rs : List ℝ, (∃ r ∈ rs, vols.length ≤ ⌊r⌋₊) → densityWeights vols rs = .error .indexError
  | [], h => by simp at h
  | r :: rs, h => by
    rw [densityWeights]
    cases hv : vols[⌊r⌋₊]? with
    | none => rfl
    | some v =>
      simp only
      rw [weights_error vols rs]
      obtain ⟨x, hx, hlen⟩ := h
      rcases List.mem_cons.mp hx with rfl | hx
      · rw [List.getElem?_eq_none hlen] at hv; cases hv
      · exact ⟨x, hx, hlen⟩

theorem zip_map_self {α β : Type*} (f : α → β) (l : List α) : l.zip (l.map f) = l.map fun a => (a, f a) := by
  induction l with
  | nil => rfl
  | cons a l ih => simp [ih]

/-- The volume of the shell between `i` and `i + 1`. -/
noncomputable def shell (dim : ℕ) (i : ℕ) : ℝ :=
  volume.real (Metric.closedBall (0 : EuclideanSpace ℝ (Fin dim)) ((i : ℝ) + 1) \ Metric.closedBall 0 (i : ℝ))

theorem shell_eq (dim : ℕ) (hd : 1 ≤ dim) (i : ℕ) : volumeSphere ((i + 1 : ℕ) : ℝ) dim - volumeSphere (i : ℝ) dim = shell dim i := by
  have hsub : Metric.closedBall (0 : EuclideanSpace ℝ (Fin dim)) (i : ℝ) ⊆ Metric.closedBall 0 ((i : ℝ) + 1) := Metric.closedBall_subset_closedBall (by linarith)
  rw [shell, measureReal_diff hsub Metric.isClosed_closedBall.measurableSet measure_closedBall_lt_top.ne,
    ← C123_volume _ (by positivity) dim hd, ← C123_volume _ (by positivity) dim hd]
  push_cast
  rfl

theorem shell_pos (dim : ℕ) (hd : 1 ≤ dim) (i : ℕ) : 0 < shell dim i := by
  rw [← shell_eq dim hd, volumeSphere, volumeSphere, ← mul_sub]
  apply mul_pos
  · apply div_pos (Real.rpow_pos_of_pos Real.pi_pos _)
    exact Real.Gamma_pos_of_pos (by positivity)
  · rw [sub_pos]
    exact pow_lt_pow_left₀ (by push_cast; linarith) (by positivity) (by omega)

theorem height_weights (n : ℕ) (w : ℕ → ℝ) (rs : List ℝ) (i : ℕ) (h : ∀ r ∈ rs, binOf n r = some i → ⌊r⌋₊ = i) :
    height n (rs.map fun r => (r, w ⌊r⌋₊)) i = (rs.countP fun r => decide (binOf n r = some i) : ℕ) * w i := by
  induction rs with
  | nil => simp [height]
  | cons r rs ih =>
    rw [List.countP_cons, Nat.cast_add, add_mul, ← ih fun x hx => h x (List.mem_cons_of_mem _ hx)]
    simp only [height, List.map_cons, List.filter_cons]
    by_cases hb : binOf n r = some i
    · simp [hb, add_comm, h r List.mem_cons_self hb]
    · simp [hb]

/-- **C129**, density of points, if the largest distance is not an integer: the number of points at distances from `i` to `i + 1`, divided by the volume of the shell
between the spheres of these radii; with these volumes the heights add up to the number of points. -/
theorem C129_density_partial (dim : ℕ) (hd : 1 ≤ dim) (rs : List ℝ) (m : ℝ) (hm : m ∈ rs) (hpos : 0 < m) (h0 : ∀ r ∈ rs, 0 ≤ r) (hle : ∀ r ∈ rs, r ≤ m)
    (hint : ∀ k : ℕ, m ≠ k) :
    ∃ hs : List ℝ, bars dim true rs = .ok hs ∧ (m ≤ hs.length ∧ (hs.length : ℝ) < m + 1) ∧
      (∀ i (hi : i < hs.length), hs[i] = (rs.countP fun r => decide ((i : ℝ) ≤ r ∧ r < i + 1) : ℕ) /
        volume.real (Metric.closedBall (0 : EuclideanSpace ℝ (Fin dim)) ((i : ℝ) + 1) \ Metric.closedBall 0 (i : ℝ))) ∧
      (hs.zipIdx.map fun q => q.1 * volume.real (Metric.closedBall (0 : EuclideanSpace ℝ (Fin dim)) ((q.2 : ℝ) + 1) \ Metric.closedBall 0 (q.2 : ℝ))).sum = rs.length := by
  have hn : 0 < nBins m := Nat.ceil_pos.mpr hpos
  have hlt : ∀ r ∈ rs, r < (nBins m : ℝ) := fun r hr => lt_of_le_of_lt (hle r hr) (lt_of_le_of_ne (Nat.le_ceil m) (hint _))
  have hb : ∀ r ∈ rs, 0 ≤ r ∧ r ≤ (nBins m : ℝ) := fun r hr => ⟨h0 r hr, (hlt r hr).le⟩
  have hbin : ∀ r ∈ rs, ∀ i, binOf (nBins m) r = some i → ⌊r⌋₊ = i := by
    intro r hr i h
    rw [binOf, if_neg (by push Not; exact hb r hr), if_neg (hlt r hr).ne] at h
    injection h
  have hlen : (volumes (nBins m) dim).length = nBins m := by simp [volumes]
  have hv : ∀ i, i < nBins m → (((volumes (nBins m) dim)[i]?).getD 0) = shell dim i := by
    intro i hi
    rw [List.getElem?_eq_getElem (by rw [hlen]; exact hi), Option.getD_some]
    simp only [volumes, List.getElem_map, List.getElem_range]
    exact shell_eq dim hd i
  have hh : ∀ i, i < nBins m → height (nBins m) (rs.map fun r => (r, 1 / (((volumes (nBins m) dim)[⌊r⌋₊]?).getD 0))) i =
      (rs.countP fun r => decide (binOf (nBins m) r = some i) : ℕ) / shell dim i := by
    intro i hi
    rw [height_weights _ (fun j => 1 / (((volumes (nBins m) dim)[j]?).getD 0)) rs i fun r hr => hbin r hr i, hv i hi]
    ring
  refine ⟨(List.range (nBins m)).map (height (nBins m) (rs.map fun r => (r, 1 / (((volumes (nBins m) dim)[⌊r⌋₊]?).getD 0)))), ?_, ?_, ?_, ?_⟩
  · rw [bars, prepare, maxOf_spec rs m hm hle]
    simp only [if_true]
    rw [weights_ok _ rs fun r hr => by rw [hlen]; exact (Nat.floor_lt (h0 r hr)).mpr (hlt r hr)]
    simp only [zip_map_self]
  · simp only [List.length_map, List.length_range]
    exact ⟨Nat.le_ceil m, Nat.ceil_lt_add_one hpos.le⟩
  · intro i hi
    simp only [List.length_map, List.length_range] at hi
    rw [List.getElem_map, List.getElem_range, hh i hi]
    have : (rs.countP fun r => decide (binOf (nBins m) r = some i)) = rs.countP fun r => decide ((i : ℝ) ≤ r ∧ r < i + 1) := by
      refine List.countP_congr fun r hr => ?_
      rw [decide_eq_true_eq, decide_eq_true_eq, binOf_iff _ hn r (hb r hr).1 (hb r hr).2]
      constructor
      · rintro ⟨_, h2, h3⟩
        refine ⟨h2, ?_⟩
        rcases h3 with h3 | h3
        · exact h3
        · have := hlt r hr
          rw [← h3] at this
          push_cast at this
          exact this
      · rintro ⟨h2, h3⟩
        exact ⟨hi, h2, Or.inl h3⟩
    rw [this]
    rfl
  · rw [← sum_count (nBins m) hn rs hb]
    have e : ((List.range (nBins m)).map (height (nBins m) (rs.map fun r => (r, 1 / (((volumes (nBins m) dim)[⌊r⌋₊]?).getD 0))))).zipIdx =
        (List.range (nBins m)).map fun i => (height (nBins m) (rs.map fun r => (r, 1 / (((volumes (nBins m) dim)[⌊r⌋₊]?).getD 0))) i, i) := by
      apply List.ext_getElem
      · simp
      · intro i h1 h2
        simp
    rw [e, List.map_map, Nat.cast_list_sum, List.map_map]
    congr 1
    refine List.map_congr_left fun i hi => ?_
    have hi' : i < nBins m := List.mem_range.mp hi
    simp only [Function.comp]
    rw [hh i hi']
    have := (shell_pos dim hd i).ne'
    rw [shell] at this
    rw [shell]
    field_simp

/-- **C129**, false of the code: there is no plot of the density if the largest distance is an integer: the largest edge is then that distance, and its
point has no shell. -/
theorem C129_density_error (dim : ℕ) (rs : List ℝ) (k : ℕ) (hm : (k : ℝ) ∈ rs) (hle : ∀ r ∈ rs, r ≤ k) : bars dim true rs = .error .indexError := by
  rw [bars, prepare, maxOf_spec rs k hm hle]
  simp only [if_true]
  rw [weights_error _ rs ⟨k, hm, by simp [volumes, nBins]⟩]

theorem C129_density_counterexample : ∃ (rs : List ℝ), (∀ r ∈ rs, 0 ≤ r) ∧ bars 2 true rs = .error .indexError ∧ bars 2 false rs = .ok [1, 1] := by
  refine ⟨[0, 2], by simp, C129_density_error 2 _ 2 (by simp) (by simp), ?_⟩
  have hn : nBins (2 : ℝ) = 2 := by rw [nBins]; exact_mod_cast Nat.ceil_natCast (R := ℝ) 2
  rw [bars, prepare, maxOf_spec [0, 2] 2 (by simp) (by simp)]
  simp only [Bool.false_eq_true, if_false, hn]
  have b0 : binOf 2 (0 : ℝ) = some 0 := by rw [binOf]; norm_num
  have b2 : binOf 2 (2 : ℝ) = some 1 := by rw [binOf]; norm_num
  simp [height, b0, b2, List.range_succ]

/-- **C129**, no points: `ValueError`. -/
theorem C129_empty (dim : ℕ) (density : Bool) : bars dim density [] = .error .valueError ∧ stacked dim density [] = .error .valueError := ⟨rfl, rfl⟩

theorem height_append (n : ℕ) (p q : List (ℝ × ℝ)) (i : ℕ) : height n (p ++ q) i = height n p i + height n q i := by
  simp [height]

theorem stackFrom_spec (n : ℕ) : ∀ (q p : List (ℝ × ℝ)),
    stackFrom n ((List.range n).map (height n p)) q = (List.range q.length).map fun j => (List.range n).map (height n (p ++ q.take (j + 1)))
  | [], p => rfl
  | a :: q, p => by
    have e : (((List.range n).map (height n p)).zip ((List.range n).map (height n [a]))).map (fun b => b.1 + b.2) = (List.range n).map (height n (p ++ [a])) := by
      rw [List.zip_map', List.map_map]
      refine List.map_congr_left fun i _ => ?_
      simp [height_append]
    rw [stackFrom]
    rw [e, stackFrom_spec n q (p ++ [a])]
    simp only [List.length_cons, List.range_succ_eq_map, List.map_cons, List.map_map]
    congr 1
    refine List.map_congr_left fun j _ => ?_
    simp

/-- **C129**, stacks: one for each point, in the order of the points; the tops of the last one are the bars without stacks. -/
theorem C129_stacked (dim : ℕ) (density : Bool) (rs : List ℝ) (ts : List (List ℝ)) (h : stacked dim density rs = .ok ts) :
    ts.length = rs.length ∧ ∃ hs, bars dim density rs = .ok hs ∧ ts.getLast? = some hs ∧
      ∀ t ∈ ts, t.length = hs.length := by
  rw [stacked] at h
  cases hp : prepare dim density rs with
  | error e => rw [hp] at h; cases h
  | ok r =>
    obtain ⟨n, q⟩ := r
    rw [hp] at h
    simp only at h
    injection h with h
    have hq : q.length = rs.length ∧ rs ≠ [] := by
      rw [prepare] at hp
      cases rs with
      | nil => cases hp
      | cons a rs =>
        refine ⟨?_, by simp⟩
        simp only [maxOf] at hp
        cases density with
        | false =>
          simp only [Bool.false_eq_true, if_false] at hp
          injection hp with hp
          injection hp with _ hp
          rw [← hp]; simp
        | true =>
          simp only [if_true] at hp
          by_cases hv : ∀ r ∈ a :: rs, ⌊r⌋₊ < (volumes (nBins (rs.foldl max a)) dim).length
          · rw [weights_ok _ _ hv] at hp
            injection hp with hp
            injection hp with _ hp
            rw [← hp]; simp
          · push Not at hv
            rw [weights_error _ _ hv] at hp
            cases hp
    have h0 : List.replicate n (0 : ℝ) = (List.range n).map (height n []) := by
      apply List.ext_getElem
      · simp
      · intro i h1 h2; simp [height]
    rw [h0, stackFrom_spec] at h
    subst h
    refine ⟨by simp [hq.1], _, by rw [bars, hp], ?_, ?_⟩
    · rw [List.getLast?_map, List.getLast?_range]
      have : q.length ≠ 0 := by rw [hq.1]; simpa using hq.2
      rw [if_neg this]
      simp only [Option.map_some, List.nil_append]
      congr 2
      rw [List.take_of_length_le (by omega)]
    · intro t ht
      obtain ⟨j, _, rfl⟩ := List.mem_map.mp ht
      simp

/-- **C129**, stacks of numbers of points: the tops of each stack count the points up to it. -/
theorem C129_stacked_number (dim : ℕ) (rs : List ℝ) (m : ℝ) (hm : m ∈ rs) (hpos : 0 < m) (h0 : ∀ r ∈ rs, 0 ≤ r) (hle : ∀ r ∈ rs, r ≤ m) :
    ∃ (n : ℕ) (ts : List (List ℝ)), (m ≤ n ∧ (n : ℝ) < m + 1) ∧ stacked dim false rs = .ok ts ∧ ts.length = rs.length ∧
      ∀ j (hj : j < ts.length), ts[j] = (List.range n).map fun i : ℕ =>
        (((rs.take (j + 1)).countP fun r => decide ((i : ℝ) ≤ r ∧ (r < i + 1 ∨ i + 1 = n)) : ℕ) : ℝ) := by
  have hn : 0 < nBins m := Nat.ceil_pos.mpr hpos
  have h00 : List.replicate (nBins m) (0 : ℝ) = (List.range (nBins m)).map (height (nBins m) []) := by
    apply List.ext_getElem
    · simp
    · intro i h1 h2; simp [height]
  refine ⟨nBins m, _, ⟨Nat.le_ceil m, Nat.ceil_lt_add_one hpos.le⟩, by
    rw [stacked, prepare, maxOf_spec rs m hm hle]
    simp only [Bool.false_eq_true, if_false]
    rw [h00, stackFrom_spec], by simp, ?_⟩
  intro j hj
  rw [List.getElem_map, List.getElem_range]
  refine List.map_congr_left fun i hi => ?_
  rw [List.nil_append, ← List.map_take, height_ones]
  congr 1
  refine List.countP_congr fun r hr => ?_
  have hr' := List.mem_of_mem_take hr
  rw [decide_eq_true_eq, decide_eq_true_eq, binOf_iff _ hn r (h0 r hr') (le_trans (hle r hr') (Nat.le_ceil m))]
  simp [List.mem_range.mp hi]

/-- The hypotheses of `C129_density_partial` hold of three points. -/
example : ∃ hs : List ℝ, bars 3 true [1 / 2, 3 / 2, 1] = .ok hs ∧ ((3 / 2 : ℝ) ≤ hs.length ∧ (hs.length : ℝ) < 3 / 2 + 1) := by
  obtain ⟨hs, h1, h2, _⟩ := C129_density_partial 3 (by norm_num) [1 / 2, 3 / 2, 1] (3 / 2) (by simp) (by norm_num) (by intro r hr; simp at hr; rcases hr with rfl | rfl | rfl <;> norm_num)
    (by intro r hr; simp at hr; rcases hr with rfl | rfl | rfl <;> norm_num) (by
      intro k h
      have h2 : (3 : ℝ) = 2 * k := by linarith
      have h3 : (3 : ℕ) = 2 * k := by exact_mod_cast h2
      omega)
  exact ⟨hs, h1, h2⟩

example : ∃ hs : List ℕ, bars 3 false [1 / 2, 3 / 2, 1, 0] = .ok (hs.map fun k : ℕ => (k : ℝ)) ∧ hs.sum = 4 := by
  obtain ⟨hs, h1, _, h3, _⟩ := C129_number 3 [1 / 2, 3 / 2, 1, 0] (3 / 2) (by simp) (by norm_num) (by intro r hr; simp at hr; rcases hr with rfl | rfl | rfl | rfl <;> norm_num)
    (by intro r hr; simp at hr; rcases hr with rfl | rfl | rfl | rfl <;> norm_num)
  exact ⟨hs, h1, h3⟩

/-- C129: the largest distance is a whole number. -/
example : bars 3 true [1 / 2, 2] = .error .indexError :=
  C129_density_error 3 _ 2 (by norm_num) (by intro r hr; simp at hr; rcases hr with rfl | rfl <;> norm_num)

example : bars 3 true [] = .error .valueError := (C129_empty 3 true).1

example (ts : List (List ℝ)) (h : stacked 3 false [1 / 2, 3 / 2, 1, 0] = .ok ts) : ts.length = 4 := (C129_stacked 3 false _ ts h).1

end GPry.DistHist
