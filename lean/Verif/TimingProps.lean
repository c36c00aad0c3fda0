import Verif.Figures
import Mathlib.Algebra.Order.Archimedean.Basic

set_option linter.all false

/-!
# Theorems about the plot of times and the contours (C131, C132)
-/

namespace GPry.Fig

open GPry.Progress (Table Row Col)

section timing

variable {K : Type} [Field K] [LinearOrder K]

/-- The number in a cell, zero if there is none. -/
def num : Ext K → K
  | .fin v => v
  | _ => 0

omit [LinearOrder K] in
theorem foldl_addK_fin : ∀ (l : List K) (a : K), (l.map Ext.fin).foldl addK (.fin a) = .fin (a + l.sum)
  | [], a => by simp
  | b :: l, a => by
    rw [List.map_cons, List.foldl_cons, addK, foldl_addK_fin l, List.sum_cons, add_assoc]

omit [LinearOrder K] in
theorem sumK_fin (l : List K) : sumK (l.map Ext.fin) = .fin l.sum := by rw [sumK, foldl_addK_fin, zero_add]

omit [Field K] [LinearOrder K] in
theorem addK_nan [Field K] (a : Ext K) : addK a .nan = .nan := by cases a <;> rfl

omit [LinearOrder K] in
theorem sumK_nan (l : List (Ext K)) (h : Ext.nan ∈ l) : sumK l = .nan := by
  have key : ∀ (l : List (Ext K)) (a : Ext K), (a = .nan ∨ Ext.nan ∈ l) → l.foldl addK a = .nan := by
    intro l
    induction l with
    | nil => intro a h; simpa using h
    | cons b l ih =>
      intro a h
      rw [List.foldl_cons]
      apply ih
      rcases h with rfl | h
      · left; rfl
      · rcases List.mem_cons.mp h with rfl | h
        · left; exact addK_nan a
        · right; exact h
  exact key l _ (Or.inr h)

/-- The columns are numbers, but perhaps for the convergence of the newest row. -/
def Numbers (t : Table K) (truth : Bool) : Prop :=
  ∀ (k : ℕ) (r : Row K), t[k]? = some r → ∀ c, (c = .timeAcquire ∨ (c = .timeTruth ∧ truth = true) ∨ c = .timeFit ∨ c = .timeConvergence) →
    (∃ v, r c = .fin v) ∨ (k = 0 ∧ c = .timeConvergence ∧ r c = .nan)

omit [LinearOrder K] in
theorem colData_fin (t : Table K) (truth : Bool) (h : Numbers t truth) (c : Col)
    (hc : c = .timeAcquire ∨ (c = .timeTruth ∧ truth = true) ∨ c = .timeFit ∨ c = .timeConvergence) :
    colData t c = t.reverse.map fun r => Ext.fin (num (r c)) := by
  have hcell : ∀ (k : ℕ) (r : Row K), t[k]? = some r → (k = 0 → c ≠ .timeConvergence) → r c = .fin (num (r c)) := by
    intro k r hr hk
    rcases h k r hr c hc with ⟨v, hv⟩ | ⟨h0, h1, _⟩
    · rw [hv]; rfl
    · exact absurd h1 (hk h0)
  by_cases hcc : c = .timeConvergence
  · subst hcc
    cases t with
    | nil => rfl
    | cons r t =>
      rw [colData, List.map_reverse, List.map_cons]
      congr 2
      · rcases h 0 r rfl _ hc with ⟨v, hv⟩ | ⟨_, _, hn⟩
        · rw [hv]; rfl
        · rw [hn]; rfl
      · refine List.map_congr_left fun q hq => ?_
        obtain ⟨k, hk⟩ := List.mem_iff_getElem?.mp hq
        exact hcell (k + 1) q (by simpa using hk) (by omega)
  · have : colData t c = (t.map fun q : Row K => q c).reverse := by
      unfold colData
      split
      · exact absurd rfl hcc
      · rfl
    rw [this, List.map_reverse]
    congr 1
    refine List.map_congr_left fun q hq => ?_
    obtain ⟨k, hk⟩ := List.mem_iff_getElem?.mp hq
    exact hcell k q hk fun _ => hcc

omit [LinearOrder K] in
theorem barLoop_spec (t : Table K) (cs : List Col) (hc : ∀ c ∈ cs, colData t c = t.reverse.map fun r => Ext.fin (num (r c))) :
    ∀ (f : Row K → K), (barLoop t (t.reverse.map fun r => Ext.fin (f r)) cs).length = cs.length ∧
      ∀ (k : ℕ) (b : Bars K), (barLoop t (t.reverse.map fun r => Ext.fin (f r)) cs)[k]? = some b →
        cs[k]? = some b.col ∧ b.height = t.reverse.map (fun r => Ext.fin (num (r b.col))) ∧ b.total = .fin ((t.reverse.map fun r => num (r b.col)).sum) ∧
        b.bottom = t.reverse.map fun r => Ext.fin (f r + ((cs.take k).map fun c => num (r c)).sum) := by
  induction cs with
  | nil => intro f; exact ⟨rfl, by intro k b h; simp [barLoop] at h⟩
  | cons c cs ih =>
    intro f
    have hz : List.zipWith addK (t.reverse.map fun r => Ext.fin (f r)) (colData t c) = t.reverse.map fun r => Ext.fin (f r + num (r c)) := by
      rw [hc c List.mem_cons_self, List.zipWith_map_left, List.zipWith_map_right, List.zipWith_self]
      rfl
    rw [barLoop, hz]
    obtain ⟨h1, h2⟩ := ih (fun c' hc' => hc c' (List.mem_cons_of_mem _ hc')) fun r => f r + num (r c)
    refine ⟨by rw [List.length_cons, h1, List.length_cons], ?_⟩
    intro k b hb
    cases k with
    | zero =>
      simp only [List.getElem?_cons_zero, Option.some.injEq] at hb
      subst hb
      refine ⟨rfl, hc c List.mem_cons_self, ?_, by simp⟩
      simp only
      rw [hc c List.mem_cons_self]
      have : (t.reverse.map fun r => Ext.fin (num (r c))) = (t.reverse.map fun r => num (r c)).map Ext.fin := by rw [List.map_map]; rfl
      rw [this, sumK_fin]
    | succ k =>
      rw [List.getElem?_cons_succ] at hb
      obtain ⟨g1, g2, g3, g4⟩ := h2 k b hb
      refine ⟨by rw [List.getElem?_cons_succ]; exact g1, g2, g3, ?_⟩
      rw [g4]
      refine List.map_congr_left fun r _ => ?_
      rw [List.take_succ_cons, List.map_cons, List.sum_cons, add_assoc]

/-- **C131**, times: if all times are numbers, except perhaps that of the convergence criterion in the last iteration, which counts as zero. There is a
set of bars for each of acquisition, truth (if asked for), fit and convergence; the height at each iteration is the time, the bottom is the
sum of the previous ones at that iteration, the total in the legend is the sum over iterations, and percentages refer to the sum of all
times. -/
theorem C131_bars (t : Table K) (ht : t ≠ []) (truth : Bool) (h : Numbers t truth) :
    ∃ bs, timing t truth = .ok (bs, .fin (((if truth then [Col.timeAcquire, .timeTruth, .timeFit, .timeConvergence] else [Col.timeAcquire, .timeFit, .timeConvergence]).map
        fun c => (t.map fun r => num (r c)).sum).sum)) ∧
      bs.map Bars.col = (if truth then [Col.timeAcquire, .timeTruth, .timeFit, .timeConvergence] else [Col.timeAcquire, .timeFit, .timeConvergence]) ∧
      ∀ (k : ℕ) (b : Bars K), bs[k]? = some b → b.height = t.reverse.map (fun r => Ext.fin (num (r b.col))) ∧ b.total = .fin ((t.map fun r => num (r b.col)).sum) ∧
        b.bottom = t.reverse.map fun r => Ext.fin ((((bs.take k).map Bars.col).map fun c => num (r c)).sum) := by
  have hmem : ∀ c ∈ timeCols truth, c = .timeAcquire ∨ (c = .timeTruth ∧ truth = true) ∨ c = .timeFit ∨ c = .timeConvergence := by
    intro c hc
    rw [timeCols] at hc
    cases truth with
    | true => simp at hc; tauto
    | false => simp at hc; tauto
  have hcol : ∀ c ∈ timeCols truth, colData t c = t.reverse.map fun r => Ext.fin (num (r c)) := fun c hc => colData_fin t truth h c (hmem c hc)
  have h0 : List.replicate t.length (Ext.fin (0 : K)) = t.reverse.map fun _ => Ext.fin (0 : K) := by
    simp
  have hsum : ∀ l : List K, l.reverse.sum = l.sum := fun l => List.sum_reverse l
  obtain ⟨h1, h2⟩ := barLoop_spec t (timeCols truth) hcol fun _ => 0
  have hbc : (barLoop t (t.reverse.map fun _ => Ext.fin (0 : K)) (timeCols truth)).map Bars.col = timeCols truth := by
    apply List.ext_getElem?
    intro k
    rw [List.getElem?_map]
    cases hb : (barLoop t (t.reverse.map fun _ => Ext.fin (0 : K)) (timeCols truth))[k]? with
    | none =>
      rw [List.getElem?_eq_none_iff, h1] at hb
      rw [List.getElem?_eq_none hb]; rfl
    | some b => rw [(h2 k b hb).1]; rfl
  refine ⟨barLoop t (t.reverse.map fun _ => Ext.fin (0 : K)) (timeCols truth), ?_, hbc, ?_⟩
  · cases t with
    | nil => exact absurd rfl ht
    | cons r t =>
      rw [timing, h0] <;> [skip; simp]
      congr 2
      have e : ((timeCols truth).map fun c => sumK (colData (r :: t) c)) = ((timeCols truth).map fun c => ((r :: t).map fun r => num (r c)).sum).map Ext.fin := by
        rw [List.map_map]
        refine List.map_congr_left fun c hc => ?_
        rw [hcol c hc]
        have : ((r :: t).reverse.map fun r => Ext.fin (num (r c))) = ((r :: t).reverse.map fun r => num (r c)).map Ext.fin := by rw [List.map_map]; rfl
        rw [this, sumK_fin, List.map_reverse, hsum]
        rfl
      rw [e, sumK_fin]
      rfl
  · intro k b hb
    obtain ⟨_, g2, g3, g4⟩ := h2 k b hb
    refine ⟨g2, by rw [g3, List.map_reverse, hsum], ?_⟩
    rw [g4, List.map_take, hbc]
    simp only [zero_add]

omit [LinearOrder K] in
/-- **C131**, a time missing anywhere else makes all percentages NaN. -/
theorem C131_nan (t : Table K) (truth : Bool) (k : ℕ) (r : Row K) (hr : t[k]? = some r) (c : Col)
    (hc : c = .timeAcquire ∨ (c = .timeTruth ∧ truth = true) ∨ c = .timeFit ∨ (c = .timeConvergence ∧ 0 < k)) (hn : r c = .nan) :
    ∃ bs, timing t truth = .ok (bs, .nan) := by
  have hcd : Ext.nan ∈ colData t c := by
    by_cases hcc : c = .timeConvergence
    · subst hcc
      have hk : 0 < k := by simpa using hc
      cases t with
      | nil => simp at hr
      | cons q t =>
        obtain ⟨k, rfl⟩ : ∃ j, k = j + 1 := ⟨k - 1, by omega⟩
        rw [colData, List.mem_reverse]
        refine List.mem_cons_of_mem _ (List.mem_map.mpr ⟨r, ?_, hn⟩)
        exact List.mem_iff_getElem?.mpr ⟨k, by simpa using hr⟩
    · have : colData t c = (t.map fun q : Row K => q c).reverse := by
        unfold colData
        split
        · exact absurd rfl hcc
        · rfl
      rw [this, List.mem_reverse]
      exact List.mem_map.mpr ⟨r, List.mem_iff_getElem?.mpr ⟨k, hr⟩, hn⟩
  have hmem : c ∈ timeCols truth := by
    rw [timeCols]
    rcases hc with rfl | ⟨rfl, rfl⟩ | rfl | ⟨rfl, _⟩
    · cases truth <;> simp
    · simp
    · cases truth <;> simp
    · cases truth <;> simp
  cases t with
  | nil => simp at hr
  | cons q t =>
    have hs := sumK_nan ((timeCols truth).map fun c => sumK (colData (q :: t) c)) (List.mem_map.mpr ⟨c, hmem, sumK_nan _ hcd⟩)
    refine ⟨barLoop (q :: t) (List.replicate (q :: t).length (.fin 0)) (timeCols truth), ?_⟩
    rw [← hs]
    rfl

/-- **C131**, false of the code: an iteration in which the acquisition proposes too few points ends after the times of acquisition are written (run.py:815-911,
`continue`); whatever is added later, all percentages of the legend are NaN from then on. -/
theorem C131_resample_counterexample (t later : Table K) (n nf time evals : Ext K) (t1 : Table K) (truth : Bool)
    (h : Progress.fill [(.nTotal, n), (.nFinite, nf), (.timeAcquire, time), (.evalsAcquire, evals)] (Progress.addIteration t) = .ok t1) :
    ∃ bs, timing (later ++ t1) truth = .ok (bs, .nan) := by
  simp only [Progress.fill, Progress.addIteration, Progress.setLast, Except.bind] at h
  injection h with h
  subst h
  refine C131_nan _ truth later.length _ (by rw [List.getElem?_append_right (le_refl _), Nat.sub_self, List.getElem?_cons_zero]) .timeFit (Or.inr (Or.inr (Or.inl rfl))) ?_
  simp

/-- The hypothesis of `C131_resample_counterexample` holds of any table. -/
example : ∃ t1, Progress.fill [(.nTotal, .fin (9 : ℚ)), (.nFinite, .fin 8), (.timeAcquire, .fin 2), (.evalsAcquire, .fin 30)] (Progress.addIteration []) = .ok t1 := ⟨_, rfl⟩

/-- Two iterations, the last one without convergence criterion: bars of acquisition 1 and 4, convergence 3 and 0. -/
example : Numbers (K := ℚ) [fun c => if c = .timeConvergence then .nan else .fin 4, fun c => if c = .timeConvergence then .fin 3 else .fin 1] true := by
  intro k r hr c hc
  match k, hr with
  | 0, hr =>
    simp only [List.getElem?_cons_zero, Option.some.injEq] at hr
    subst hr
    by_cases h : c = .timeConvergence
    · right; simp [h]
    · left; exact ⟨4, by simp [h]⟩
  | 1, hr =>
    simp only [List.getElem?_cons_succ, List.getElem?_cons_zero, Option.some.injEq] at hr
    subst hr
    left
    by_cases h : c = .timeConvergence
    · exact ⟨3, by simp [h]⟩
    · exact ⟨1, by simp [h]⟩
  | k + 2, hr => simp at hr

/-! ### Ticks -/

theorem stride_length {α : Type} (k : ℕ) (hk : 0 < k) (l : List α) : (stride k l).length = (l.length + k - 1) / k := by
  rw [stride, List.length_map, ← List.countP_eq_length_filter]
  have e : (l.zipIdx.countP fun q => decide (q.2 % k = 0)) = (List.range l.length).countP fun i => decide (i % k = 0) := by
    have : l.zipIdx.map Prod.snd = List.range l.length := by rw [List.zipIdx_map_snd, List.range_eq_range']
    rw [← this, List.countP_map]
    rfl
  rw [e]
  generalize l.length = n
  induction n with
  | zero => simp [Nat.div_eq_of_lt (show k - 1 < k by omega)]
  | succ n ih =>
    rw [List.range_succ, List.countP_append, ih, List.countP_singleton]
    have h1 : n + 1 + k - 1 = (n + k - 1) + 1 := by omega
    rw [h1, Nat.succ_div]
    congr 1
    have h2 : n + k - 1 + 1 = n + k := by omega
    rw [h2]
    have h3 : (k ∣ n + k) ↔ n % k = 0 := by
      rw [Nat.dvd_add_self_right, Nat.dvd_iff_mod_eq_zero]
    by_cases h : n % k = 0
    · rw [if_pos (h3.mpr h)]; simp [h]
    · rw [if_neg fun h' => h (h3.mp h')]; simp [h]

/-- **C131**, ticks: all of them up to nineteen; above, from ten to nineteen, the first one among them; they are some of the original ones, in order. -/
theorem C131_ticks {α : Type} (l : List α) : (ticks l).Sublist l ∧ (ticks l).head? = l.head? ∧ (l.length ≤ 19 → ticks l = l) ∧
    (20 ≤ l.length → 10 ≤ (ticks l).length ∧ (ticks l).length ≤ 19) := by
  refine ⟨?_, ?_, ?_, ?_⟩
  · rw [ticks, stride]
    have := (List.filter_sublist (l := l.zipIdx) (p := fun q => decide (q.2 % (max 1 (l.length / 10)) = 0))).map Prod.fst
    rwa [List.zipIdx_map_fst] at this
  · cases l with
    | nil => rfl
    | cons a l => simp [ticks, stride, List.zipIdx_cons]
  · intro h
    have : max 1 (l.length / 10) = 1 := by omega
    rw [ticks, this, stride, List.filter_eq_self.mpr (by simp [Nat.mod_one])]
    exact List.zipIdx_map_fst 0 l
  · intro h
    have hk : max 1 (l.length / 10) = l.length / 10 := by omega
    rw [ticks, stride_length _ (by omega), hk]
    generalize hn : l.length = n at *
    obtain ⟨q, r, hr, hq⟩ : ∃ q r, r < 10 ∧ n = 10 * q + r := ⟨n / 10, n % 10, Nat.mod_lt _ (by norm_num), by omega⟩
    have hq2 : n / 10 = q := by omega
    rw [hq2]
    constructor
    · rw [Nat.le_div_iff_mul_le (by omega)]; omega
    · have : (n + q - 1) / q < 20 := by
        rw [Nat.div_lt_iff_lt_mul (by omega)]
        omega
      omega

example : (ticks (List.range 29)).length = 15 := by decide

end timing

/-! ## C132: contours -/

section contours

variable {K : Type} [Field K] [LinearOrder K] [IsStrictOrderedRing K]

omit [Field K] [LinearOrder K] [IsStrictOrderedRing K] in
theorem reshape_flatMap {α : Type} (f : K × K → α) (x : List K) : ∀ y : List K,
    reshape x.length y.length ((gridPoints x y).map f) = y.map fun b => x.map fun a => f (a, b)
  | [] => rfl
  | b :: y => by
    have e : (gridPoints x (b :: y)).map f = (x.map fun a => f (a, b)) ++ (gridPoints x y).map f := by
      simp [gridPoints, List.map_map, Function.comp_def]
    rw [List.length_cons, reshape, e, List.take_left' (by simp), List.drop_left' (by simp), reshape_flatMap f x y]
    rfl

omit [Field K] [LinearOrder K] [IsStrictOrderedRing K] in
/-- **C132**, contours: the value drawn at the crossing of `x[j]` and `y[i]` is that of the surrogate there. -/
theorem C132_grid {α : Type} (f : K × K → α) (x y : List K) (i j : ℕ) (hi : i < y.length) (hj : j < x.length) :
    ∃ row, (reshape x.length y.length ((gridPoints x y).map f))[i]? = some row ∧ row[j]? = some (f (x[j], y[i])) := by
  rw [reshape_flatMap]
  exact ⟨_, by rw [List.getElem?_map, List.getElem?_eq_getElem hi]; rfl, by rw [List.getElem?_map, List.getElem?_eq_getElem hj]; rfl⟩

/-- **C132**, levels, for values that are not negative: the first level is not above the smallest value, and there is one that is not below the largest. -/
theorem C132_levels_partial [Archimedean K] (lo hi : K) (h0 : 0 ≤ lo) (hlt : lo < hi) :
    (∃ v, level lo hi 0 = some v ∧ v ≤ lo) ∧ ∃ k v, level lo hi k = some v ∧ hi ≤ v := by
  have hs : 0 < (hi - lo) / 500 := div_pos (sub_pos.mpr hlt) (by norm_num)
  constructor
  · refine ⟨lo * (99 / 100), by rw [level, if_pos]; · simp
                                · simp; linarith, by linarith⟩
  · have hex : ∃ k : ℕ, hi ≤ lo * (99 / 100) + (k : K) * ((hi - lo) / 500) := by
      obtain ⟨k, hk⟩ := exists_nat_ge ((hi - lo * (99 / 100)) / ((hi - lo) / 500))
      refine ⟨k, ?_⟩
      rw [div_le_iff₀ hs] at hk
      linarith
    classical
    have hmin := Nat.find_spec hex
    have hk0 : Nat.find hex ≠ 0 := by
      intro h
      rw [h] at hmin
      simp at hmin
      linarith
    obtain ⟨k, hk⟩ : ∃ k, Nat.find hex = k + 1 := ⟨Nat.find hex - 1, by omega⟩
    have hprev := Nat.find_min hex (m := k) (by omega)
    push Not at hprev
    rw [hk] at hmin
    refine ⟨k + 1, _, by
      rw [level, if_pos]
      push_cast
      have h1 : (hi - lo) / 500 ≤ hi * (1 / 100) := by
        rw [div_le_iff₀ (by norm_num)]
        linarith
      linarith, hmin⟩

/-- **C132**, false of the code: "boost the upper limit to avoid truncation errors". If the largest value is negative, as for a log-posterior, all levels are
below it; if the smallest one is, all levels are above it. -/
theorem C132_levels_counterexample (lo hi : K) (hlt : lo < hi) :
    (hi < 0 → ∀ k v, level lo hi k = some v → v < hi) ∧ (lo < 0 → ∀ k v, level lo hi k = some v → lo < v) := by
  have hs : 0 < (hi - lo) / 500 := div_pos (sub_pos.mpr hlt) (by norm_num)
  constructor
  · intro hh k v hv
    rw [level] at hv
    split at hv
    · injection hv with hv
      subst hv
      linarith
    · cases hv
  · intro hh k v hv
    rw [level] at hv
    split at hv
    · injection hv with hv
      subst hv
      have : (0 : K) ≤ (k : K) * ((hi - lo) / 500) := mul_nonneg (Nat.cast_nonneg k) hs.le
      linarith
    · cases hv

/-- There are levels in the case of negative values. -/
example : ∃ v, level (-10 : ℚ) (-1) 0 = some v := ⟨-99 / 10, by norm_num [level]⟩

/-- **C132**, levels of the version for finite values: after clipping all values are from the first to the last level, those in the upper half of the values are not changed, and the
largest value is inside. -/
theorem C132_finite (zs : List K) (hsort : zs.Pairwise (· ≥ ·)) (l : K × K) (h : levelsFinite zs = some l) :
    (∀ z, l.1 ≤ clip l z ∧ clip l z ≤ l.2) ∧ (∀ z ∈ zs.take (zs.length / 2), clip l z = z) ∧ ∀ z ∈ zs, z ≤ l.2 := by
  match zs, hsort, h with
  | [], _, h => cases h
  | hi :: rest, hsort, h =>
    rw [levelsFinite] at h
    cases hg : (((hi :: rest).take ((hi :: rest).length / 2))).getLast? with
    | none => rw [hg] at h; cases h
    | some lo =>
      rw [hg] at h
      simp only [Option.some.injEq] at h
      subst h
      have hmax : ∀ z ∈ hi :: rest, z ≤ hi := by
        intro z hz
        rcases List.mem_cons.mp hz with rfl | hz
        · exact le_refl _
        · exact (List.pairwise_cons.mp hsort).1 z hz
      have hlo : lo ≤ hi := hmax lo (List.mem_of_mem_take (List.mem_of_getLast? hg))
      have hmin : ∀ z ∈ (hi :: rest).take ((hi :: rest).length / 2), lo ≤ z := by
        have hp := hsort.sublist (List.take_sublist ((hi :: rest).length / 2) (hi :: rest))
        obtain ⟨ini, hini⟩ := List.getLast?_eq_some_iff.mp hg
        rw [hini] at hp ⊢
        intro z hz
        rcases List.mem_append.mp hz with hz | hz
        · exact (List.pairwise_append.mp hp).2.2 z hz lo (by simp)
        · simp at hz; rw [hz]
      have hr : 0 ≤ hi - lo := sub_nonneg.mpr hlo
      have hb : hi - 199 / 100 * (hi - lo) ≤ hi + 1 / 100 * (hi - lo) := by linarith
      refine ⟨?_, ?_, ?_⟩
      · intro z
        rw [clip]
        exact ⟨le_min (le_max_right _ _) hb, min_le_right _ _⟩
      · intro z hz
        have h1 := hmin z hz
        have h2 := hmax z (List.mem_of_mem_take hz)
        rw [clip]
        simp only
        rw [max_eq_left (by linarith), min_eq_left (by linarith)]
      · intro z hz
        have h2 := hmax z hz
        simp only
        linarith

example : levelsFinite [(0 : ℚ), -1, -5, -100] = some (0 - 199 / 100 * 1, 0 + 1 / 100 * 1) := by
  norm_num [levelsFinite]

theorem foldl_min_le (l : List K) : ∀ a : K, l.foldl min a ≤ a ∧ ∀ z ∈ l, l.foldl min a ≤ z := by
  induction l with
  | nil => exact fun a => ⟨le_refl _, by simp⟩
  | cons b l ih =>
    intro a
    obtain ⟨h1, h2⟩ := ih (min a b)
    refine ⟨h1.trans (min_le_left _ _), ?_⟩
    intro z hz
    rcases List.mem_cons.1 hz with rfl | hz
    · exact h1.trans (min_le_right _ _)
    · exact h2 z hz

theorem le_foldl_max (l : List K) : ∀ a : K, a ≤ l.foldl max a ∧ ∀ z ∈ l, z ≤ l.foldl max a := by
  induction l with
  | nil => exact fun a => ⟨le_refl _, by simp⟩
  | cons b l ih =>
    intro a
    obtain ⟨h1, h2⟩ := ih (max a b)
    refine ⟨(le_max_left _ _).trans h1, ?_⟩
    intro z hz
    rcases List.mem_cons.1 hz with rfl | hz
    · exact (le_max_right _ _).trans h1
    · exact h2 z hz

/-- **C132**, panel of the standard deviation: the levels increase, and every standard deviation drawn (those where the mean is finite) is between
the first and the last one; there are levels unless the mean is finite nowhere. -/
theorem C132_std (q : List (Bool × K)) :
    (levelsStd q = none ↔ ∀ p ∈ q, p.1 = false) ∧ ∀ l, levelsStd q = some l → l.1 < l.2 ∧ ∀ z, some z ∈ drawnStd q → l.1 ≤ z ∧ z ≤ l.2 := by
  have hm : ∀ z, z ∈ (q.filter Prod.fst).map Prod.snd ↔ (true, z) ∈ q := by
    intro z
    rw [List.mem_map]
    constructor
    · rintro ⟨⟨b, w⟩, h, rfl⟩
      rw [List.mem_filter] at h
      obtain ⟨h1, h2⟩ := h
      dsimp only at h2
      rw [← h2]
      exact h1
    · intro h
      exact ⟨(true, z), List.mem_filter.2 ⟨h, rfl⟩, rfl⟩
  unfold levelsStd
  cases hz : (q.filter Prod.fst).map Prod.snd with
  | nil =>
    rw [hz] at hm
    refine ⟨⟨fun _ p hp => ?_, fun _ => rfl⟩, by intro l h; simp [minOf] at h⟩
    obtain ⟨b, w⟩ := p
    cases b with
    | false => rfl
    | true => exact absurd ((hm w).2 hp) (by simp)
  | cons a r =>
    rw [hz] at hm
    obtain ⟨m1, m2⟩ := foldl_min_le r a
    obtain ⟨n1, n2⟩ := le_foldl_max r a
    refine ⟨⟨fun h => by simp [minOf, maxOf] at h, fun h => ?_⟩, ?_⟩
    · have := h _ ((hm a).1 List.mem_cons_self)
      simp at this
    · intro l hl
      simp only [minOf, maxOf, Option.some.injEq] at hl
      subst hl
      refine ⟨?_, fun z hzd => ?_⟩
      · dsimp only
        split_ifs with hp
        · linarith
        · have : (0 : K) < 1 / 100000 := by norm_num
          linarith
      · unfold drawnStd at hzd
        rw [List.mem_map] at hzd
        obtain ⟨⟨b, w⟩, hq, he⟩ := hzd
        cases b with
        | false => simp at he
        | true =>
          simp only [if_true, Option.some.injEq] at he
          subst he
          have hw := (hm w).2 hq
          have hlo : r.foldl min a ≤ w := by
            rcases List.mem_cons.1 hw with rfl | h
            · exact m1
            · exact m2 w h
          have hhi : w ≤ r.foldl max a := by
            rcases List.mem_cons.1 hw with rfl | h
            · exact n1
            · exact n2 w h
          refine ⟨hlo, ?_⟩
          dsimp only
          split_ifs with hp
          · linarith
          · have : (0 : K) < 1 / 100000 := by norm_num
            linarith

example : levelsStd [(true, (1 : ℚ)), (false, 7), (true, 3)] = some (1, 3) := by
  norm_num [levelsStd, minOf, maxOf]

theorem foldl_min_mem : ∀ (r : List K) (a : K), r.foldl min a ∈ a :: r
  | [], a => by simp
  | b :: r, a => by
    rw [List.foldl_cons]
    rcases List.mem_cons.1 (foldl_min_mem r (min a b)) with h | h
    · rw [h]
      rcases min_choice a b with h' | h' <;> rw [h'] <;> simp
    · exact List.mem_cons_of_mem _ (List.mem_cons_of_mem _ h)

theorem foldl_max_mem : ∀ (r : List K) (a : K), r.foldl max a ∈ a :: r
  | [], a => by simp
  | b :: r, a => by
    rw [List.foldl_cons]
    rcases List.mem_cons.1 (foldl_max_mem r (max a b)) with h | h
    · rw [h]
      rcases max_choice a b with h' | h' <;> rw [h'] <;> simp
    · exact List.mem_cons_of_mem _ (List.mem_cons_of_mem _ h)

/-- **C132**, panel of the standard deviation: the first level is drawn, and so is the last one unless all standard deviations drawn are equal; then it is `1e-5` above. -/
theorem C132_std_range (q : List (Bool × K)) (l : K × K) (h : levelsStd q = some l) :
    some l.1 ∈ drawnStd q ∧ (some l.2 ∈ drawnStd q ∨ (∀ z, some z ∈ drawnStd q → z = l.1) ∧ l.2 = l.1 + 1 / 10 ^ 5) := by
  have hm : ∀ z, z ∈ (q.filter Prod.fst).map Prod.snd ↔ some z ∈ drawnStd q := by
    intro z
    unfold drawnStd
    rw [List.mem_map, List.mem_map]
    constructor
    · rintro ⟨⟨b, w⟩, h, rfl⟩
      rw [List.mem_filter] at h
      exact ⟨(b, w), h.1, by rw [if_pos h.2]⟩
    · rintro ⟨⟨b, w⟩, h, he⟩
      cases b with
      | false => simp at he
      | true =>
        simp only [if_true, Option.some.injEq] at he
        exact ⟨(true, w), List.mem_filter.2 ⟨h, rfl⟩, he⟩
  unfold levelsStd at h
  cases hz : (q.filter Prod.fst).map Prod.snd with
  | nil => rw [hz] at h; simp [minOf] at h
  | cons a r =>
    rw [hz] at hm h
    obtain ⟨m1, m2⟩ := foldl_min_le r a
    obtain ⟨n1, n2⟩ := le_foldl_max r a
    simp only [minOf, maxOf, Option.some.injEq] at h
    subst h
    refine ⟨(hm _).1 (foldl_min_mem r a), ?_⟩
    dsimp only
    split_ifs with hp
    · left
      rw [add_sub_cancel]
      exact (hm _).1 (foldl_max_mem r a)
    · right
      refine ⟨fun z hzd => ?_, by norm_num⟩
      have hw := (hm z).2 hzd
      rcases List.mem_cons.1 hw with rfl | h
      · linarith
      · linarith [m2 z h, n2 z h]

example : levelsStd [(true, (2 : ℚ)), (false, 7), (true, 2)] = some (2, 200001 / 100000) := by
  norm_num [levelsStd, minOf, maxOf]

/-- **C132**, false of the code: if the upper half of the finite values are equal (a flat region, or clipped values) first and last level coincide
(`contourf` needs increasing levels), and with a single finite value there are none (`max` of nothing). -/
theorem C132_flat_counterexample (hi : K) (rest : List K) (h : ∀ z ∈ (hi :: rest).take ((hi :: rest).length / 2), z = hi) (l : K × K)
    (hl : levelsFinite (hi :: rest) = some l) : l.1 = l.2 := by
  rw [levelsFinite] at hl
  cases hg : (((hi :: rest).take ((hi :: rest).length / 2))).getLast? with
  | none => rw [hg] at hl; cases hl
  | some lo =>
    rw [hg] at hl
    simp only [Option.some.injEq] at hl
    have := h lo (List.mem_of_getLast? hg)
    subst this
    subst hl
    simp

example : levelsFinite [(2 : ℚ), 2, 1, 0] = some (2, 2) := by norm_num [levelsFinite]

example : levelsFinite [(2 : ℚ)] = none := by norm_num [levelsFinite]

end contours

namespace ExTiming

/-- C131: two iterations. -/
def exTab : Table ℚ := [fun c => if c = .timeConvergence then .nan else .fin 4, fun c => if c = .timeConvergence then .fin 3 else .fin 1]

theorem exTab_numbers : Numbers exTab true := by
  intro k r hr c hc
  match k, hr with
  | 0, hr =>
    simp only [exTab, List.getElem?_cons_zero, Option.some.injEq] at hr
    subst hr
    by_cases h : c = .timeConvergence
    · right; simp [h]
    · left; exact ⟨4, by simp [h]⟩
  | 1, hr =>
    simp only [exTab, List.getElem?_cons_succ, List.getElem?_cons_zero, Option.some.injEq] at hr
    subst hr
    left
    by_cases h : c = .timeConvergence
    · exact ⟨3, by simp [h]⟩
    · exact ⟨1, by simp [h]⟩
  | k + 2, hr => simp [exTab] at hr

/-- The total time is `3 * (4 + 1) + 3`. -/
example : ∃ bs, timing exTab true = .ok (bs, .fin 18) := by
  obtain ⟨bs, h, -⟩ := C131_bars exTab (by simp [exTab]) true exTab_numbers
  refine ⟨bs, h.trans (congrArg (fun v => Except.ok (bs, Ext.fin v)) ?_)⟩
  decide +kernel

/-- The fit of the first iteration was not timed. -/
example : ∃ bs, timing [(fun c => if c = .timeFit then .nan else .fin (4 : ℚ) : Row ℚ)] true = .ok (bs, .nan) :=
  C131_nan _ true 0 _ rfl .timeFit (by simp) rfl

/-- C132: the value at the second column and first row. -/
example : ∃ row, (reshape 3 2 ((gridPoints [(0 : ℚ), 1, 2] [10, 20]).map fun q => q.1 + q.2))[0]? = some row ∧ row[1]? = some 11 := by
  obtain ⟨row, h, h'⟩ := C132_grid (fun q : ℚ × ℚ => q.1 + q.2) [0, 1, 2] [10, 20] 0 1 (by decide) (by decide)
  exact ⟨row, h, h'.trans (by norm_num)⟩

example : (∃ v, level (1 : ℚ) 10 0 = some v ∧ v ≤ 1) ∧ ∃ k v, level (1 : ℚ) 10 k = some v ∧ 10 ≤ v :=
  C132_levels_partial 1 10 (by norm_num) (by norm_num)

end ExTiming

end GPry.Fig
