import Verif.Preproc
import Mathlib.Data.List.GetD
import Verif.GprProps2
import Mathlib.Algebra.Order.Ring.Rat
import Mathlib.LinearAlgebra.Matrix.ToLinearEquiv
import Mathlib.Algebra.BigOperators.Field
import Mathlib.Tactic.FieldSimp
import Mathlib.Tactic.Linarith
import Mathlib.Tactic.Positivity

/-!
# Properties C05-C08, C71-C73: preprocessors
-/

set_option linter.all false

namespace GPry.Pre

open GPry.Gpr (Err PreY)

variable {K : Type*} [Field K] [LinearOrder K] [IsStrictOrderedRing K] {d : ℕ}

/-! ## C05 -/

/-- Bounds used in the examples: `[0, 10] × [-1, 1]`. -/
def exB : NormBounds 2 ℚ := ⟨![0, -1], ![10, 1]⟩

/-- **C05**: for bounds with `lower < upper`, `transform` gives finite numbers, is undone by
`inverse_transform`, and the result is in the unit cube iff the point is in the bounds. -/
theorem C05_round_trip (b : NormBounds d K) (hb : ∀ i, b.lo i < b.hi i) (x : Fin d → K) :
    ∃ z : Fin d → K, (b.transform x = fun i => .fin (z i)) ∧ b.inverse z = x ∧
      ((∀ i, 0 ≤ z i ∧ z i ≤ 1) ↔ ∀ i, b.lo i ≤ x i ∧ x i ≤ b.hi i) := by
  have hw : ∀ i, 0 < b.hi i - b.lo i := fun i => sub_pos.2 (hb i)
  refine ⟨fun i => (x i - b.lo i) / (b.hi i - b.lo i), ?_, ?_, ?_⟩
  · funext i
    simp [NormBounds.transform, Ext.divFin, (hw i).ne']
  · funext i
    simp only [NormBounds.inverse]
    rw [div_mul_cancel₀ _ (hw i).ne']
    ring
  · refine forall_congr' fun i => ?_
    rw [div_le_one (hw i), le_div_iff₀ (hw i)]
    constructor <;> rintro ⟨h1, h2⟩ <;> constructor <;> linarith

example : exB.transform ![5, 0] = ![.fin (1/2), .fin (1/2)] ∧
    ∃ z : Fin 2 → ℚ, (exB.transform ![5, 3] = fun i => .fin (z i)) ∧ exB.inverse z = ![5, 3] ∧
      ((∀ i, 0 ≤ z i ∧ z i ≤ 1) ↔ ∀ i, exB.lo i ≤ ![5, 3] i ∧ ![5, 3] i ≤ exB.hi i) :=
  ⟨by decide +kernel, C05_round_trip exB (by decide +kernel) ![5, 3]⟩

/-- **C05**: `transform` undoes `inverse_transform`. -/
theorem C05_inverse_round_trip (b : NormBounds d K) (hb : ∀ i, b.lo i < b.hi i) (z : Fin d → K) :
    b.transform (b.inverse z) = fun i => .fin (z i) := by
  funext i
  have hw : b.hi i - b.lo i ≠ 0 := (sub_pos.2 (hb i)).ne'
  simp only [NormBounds.transform, NormBounds.inverse, Ext.divFin, hw, if_false]
  congr 1
  field_simp
  ring

example : exB.transform (exB.inverse ![1/4, 2]) = fun i => .fin (![1/4, 2] i) :=
  C05_inverse_round_trip exB (by decide +kernel) _

/-- **C05**: the order of each coordinate is preserved. -/
theorem C05_monotone (b : NormBounds d K) (hb : ∀ i, b.lo i < b.hi i) (x y : Fin d → K) (i : Fin d) :
    Ext.lt (b.transform x i) (b.transform y i) = true ↔ x i < y i := by
  have hw : 0 < b.hi i - b.lo i := sub_pos.2 (hb i)
  simp only [NormBounds.transform, Ext.divFin, hw.ne', if_false, Ext.lt, decide_eq_true_eq]
  rw [div_lt_div_iff_of_pos_right hw]
  constructor <;> intro h <;> linarith

example : Ext.lt (exB.transform ![0, -3] 1) (exB.transform ![7, 1/2] 1) = true :=
  (C05_monotone exB (by decide +kernel) ![0, -3] ![7, 1/2] 1).2 (by decide +kernel)

/-- **C05**: the bounds themselves are mapped to `transform_bounds`, the unit interval. -/
theorem C05_bounds (b : NormBounds d K) (hb : ∀ i, b.lo i < b.hi i) (i : Fin d) :
    b.transform b.lo i = .fin (b.transformBounds i).1 ∧ b.transform b.hi i = .fin (b.transformBounds i).2 := by
  have hw : b.hi i - b.lo i ≠ 0 := (sub_pos.2 (hb i)).ne'
  simp [NormBounds.transform, NormBounds.transformBounds, Ext.divFin, hw]

example : exB.transform exB.lo 1 = .fin 0 ∧ exB.transform exB.hi 1 = .fin 1 := C05_bounds exB (by decide +kernel) 1

/-- **C05**: bounds are refused iff some lower one is larger than the upper one. -/
theorem C05_refused (old : Option (NormBounds d K)) (lo hi : Fin d → K) :
    (NormBounds.update old lo hi).2 = none ↔ ∀ i, lo i ≤ hi i := by
  simp [NormBounds.update]

example : (NormBounds.update (some exB) ![0, 2] ![1, 1]).2 ≠ none ∧ (NormBounds.update (some exB) ![0, 1] ![1, 3]).2 = none :=
  ⟨fun h => absurd ((C05_refused (some exB) ![0, 2] ![1, 1]).1 h 1) (by decide +kernel),
    (C05_refused (some exB) ![0, 1] ![1, 3]).2 (by decide +kernel)⟩

/-- **C05**, outside of its hypothesis: zero-width bounds are accepted, and then no point whatsoever has a
finite transform. -/
theorem C05_zero_width_accepted (b : NormBounds d K) (i : Fin d) (hi : b.lo i = b.hi i) (x : Fin d → K) :
    (b.transform x i).isFinite = false := by
  simp only [NormBounds.transform, Ext.divFin, hi, sub_self, if_true]
  split_ifs <;> rfl

example : ((⟨![0, 1], ![0, 3]⟩ : NormBounds 2 ℚ).transform ![0, 2] 0).isFinite = false :=
  C05_zero_width_accepted _ 0 (by decide +kernel) _

example : (NormBounds.update (K := ℚ) (d := 2) none ![0, 1] ![0, 3]).2 = none := by decide +kernel

/-- **C05**, defect: refused bounds are nevertheless stored. -/
theorem C05_refused_but_stored : ∃ b : NormBounds 1 ℚ,
    (NormBounds.update (some b) ![1] ![0]).2 ≠ none ∧ (NormBounds.update (some b) ![1] ![0]).1.lo ≠ b.lo := by
  refine ⟨⟨![0], ![1]⟩, by decide +kernel, ?_⟩
  intro h
  have := congrFun h 0
  simp [NormBounds.update] at this

/-! ## C06 -/

variable {D C S Sc : Type*}

/-- A stage subtracting the first datum and one dividing by the largest one. -/
def exShift : Stage ℚ Unit ℚ ℚ := ⟨fun _ xs _ => xs.headD 0, fun s x => x - s, fun s x => x + s, fun _ x => x, fun _ x => x⟩
def exScale : Stage ℚ Unit ℚ ℚ :=
  ⟨fun _ xs _ => xs.foldl max 1, fun s x => x / s, fun s x => x * s, fun s x => x / s, fun s x => x * s⟩

/-- The two stages, fitted on 3, 5, 11. -/
def exPipe : Pipe ℚ Unit ℚ ℚ := Pipe.fit [(exShift, 0), (exScale, 0)] [3, 5, 11] ()

theorem exPipe_eq : exPipe = [(exShift, 3), (exScale, 8)] := by
  have h1 : exShift.fit 0 [3, 5, 11] () = 3 := by decide +kernel
  have h2 : exScale.fit 0 ([3, 5, 11].map (exShift.tr 3)) () = 8 := by decide +kernel
  simp only [exPipe, Pipe.fit, h1, h2]

/-- **C06**: after `fit`, stage `k` has been fitted on the data transformed by the freshly fitted stages
before it. -/
theorem C06_fit_on_transformed (ps : Pipe D C S Sc) (xs : List D) (c : C) (k : ℕ) (p : Stage D C S Sc) (s : S)
    (hk : ps[k]? = some (p, s)) :
    (ps.fit xs c)[k]? = some (p, p.fit s (xs.map (Pipe.tr ((ps.fit xs c).take k))) c) := by
  induction ps generalizing xs k with
  | nil => simp at hk
  | cons q rest ih =>
    obtain ⟨q, t⟩ := q
    cases k with
    | zero =>
      simp only [List.getElem?_cons_zero, Option.some.injEq, Prod.mk.injEq] at hk
      obtain ⟨rfl, rfl⟩ := hk
      have : (Pipe.tr ([] : Pipe D C S Sc)) = id := by funext x; rfl
      simp [Pipe.fit, this]
    | succ k =>
      simp only [List.getElem?_cons_succ] at hk
      have := ih (xs.map (q.tr (q.fit t xs c))) k hk
      simp only [Pipe.fit, List.getElem?_cons_succ, this, List.take_succ_cons, List.map_map]
      rfl

example : exPipe[1]? = some (exScale, exScale.fit 0 ([3, 5, 11].map (Pipe.tr (exPipe.take 1))) ()) :=
  C06_fit_on_transformed [(exShift, 0), (exScale, 0)] [3, 5, 11] () 1 exScale 0 rfl

/-- Fitting neither adds, drops nor reorders stages. -/
theorem C06_fit_stages (ps : Pipe D C S Sc) (xs : List D) (c : C) :
    (ps.fit xs c).map Prod.fst = ps.map Prod.fst := by
  induction ps generalizing xs with
  | nil => rfl
  | cons q rest ih => simp [Pipe.fit, ih]

example : exPipe.map Prod.fst = [exShift, exScale] := C06_fit_stages [(exShift, 0), (exScale, 0)] [3, 5, 11] ()

/-- **C06**: if each stage's inverse undoes it, the pipeline's inverse undoes the pipeline. -/
theorem C06_inv_tr (ps : Pipe D C S Sc) (h : ∀ q ∈ ps, ∀ x, q.1.inv q.2 (q.1.tr q.2 x) = x) (x : D) :
    ps.inv (ps.tr x) = x := by
  induction ps generalizing x with
  | nil => rfl
  | cons q rest ih =>
    simp only [Pipe.inv, Pipe.tr, List.reverse_cons, List.foldl_append, List.foldl_cons, List.foldl_nil] at ih ⊢
    rw [ih (fun q' hq => h q' (List.mem_cons_of_mem _ hq))]
    exact h q List.mem_cons_self x

theorem exPipe_inv : ∀ q ∈ exPipe, ∀ x, q.1.inv q.2 (q.1.tr q.2 x) = x := by
  rw [exPipe_eq]
  intro q hq x
  simp only [List.mem_cons, List.not_mem_nil, or_false] at hq
  rcases hq with rfl | rfl <;> simp [exShift, exScale]

example : exPipe.inv (exPipe.tr (-7)) = -7 := C06_inv_tr exPipe exPipe_inv (-7)

/-- **C06**: and the other way round. -/
theorem C06_tr_inv (ps : Pipe D C S Sc) (h : ∀ q ∈ ps, ∀ x, q.1.tr q.2 (q.1.inv q.2 x) = x) (x : D) :
    ps.tr (ps.inv x) = x := by
  induction ps generalizing x with
  | nil => rfl
  | cons q rest ih =>
    simp only [Pipe.inv, Pipe.tr, List.reverse_cons, List.foldl_append, List.foldl_cons, List.foldl_nil] at ih ⊢
    rw [h q List.mem_cons_self, ih (fun q' hq => h q' (List.mem_cons_of_mem _ hq))]

example : exPipe.tr (exPipe.inv 9) = 9 := by
  refine C06_tr_inv exPipe ?_ 9
  rw [exPipe_eq]
  intro q hq x
  simp only [List.mem_cons, List.not_mem_nil, or_false] at hq
  rcases hq with rfl | rfl <;> simp [exShift, exScale]

/-- **C06**: scales go through the pipeline and back. -/
theorem C06_scale_round_trip (ps : Pipe D C S Sc)
    (h : ∀ q ∈ ps, ∀ x, q.1.invScale q.2 (q.1.trScale q.2 x) = x) (x : Sc) :
    ps.invScale (ps.trScale x) = x := by
  induction ps generalizing x with
  | nil => rfl
  | cons q rest ih =>
    simp only [Pipe.invScale, Pipe.trScale, List.reverse_cons, List.foldl_append, List.foldl_cons,
      List.foldl_nil] at ih ⊢
    rw [ih (fun q' hq => h q' (List.mem_cons_of_mem _ hq))]
    exact h q List.mem_cons_self x

example : exPipe.invScale (exPipe.trScale 9) = 9 := by
  refine C06_scale_round_trip exPipe ?_ 9
  rw [exPipe_eq]
  intro q hq x
  simp only [List.mem_cons, List.not_mem_nil, or_false] at hq
  rcases hq with rfl | rfl <;> simp [exShift, exScale]

/-- **C06**: if in each stage differences of transformed data are transformed scales, so it is for the
pipeline; in particular scale factors multiply. -/
theorem C06_scale_law (ps : Pipe K C S K) (h : ∀ q ∈ ps, ∀ x y, q.1.tr q.2 x - q.1.tr q.2 y = q.1.trScale q.2 (x - y))
    (x y : K) : ps.tr x - ps.tr y = ps.trScale (x - y) := by
  induction ps generalizing x y with
  | nil => rfl
  | cons q rest ih =>
    simp only [Pipe.trScale, Pipe.tr, List.foldl_cons] at ih ⊢
    rw [ih (fun q' hq => h q' (List.mem_cons_of_mem _ hq)), h q List.mem_cons_self]

example : exPipe.tr 11 - exPipe.tr 5 = exPipe.trScale (11 - 5) := by
  refine C06_scale_law exPipe ?_ 11 5
  rw [exPipe_eq]
  intro q hq x y
  simp only [List.mem_cons, List.not_mem_nil, or_false] at hq
  rcases hq with rfl | rfl <;> simp [exShift, exScale] <;> ring

theorem C06_scale_factors (ps : Pipe D C S K) (f : Stage D C S K × S → K)
    (h : ∀ q ∈ ps, ∀ x, q.1.trScale q.2 x = f q * x) (x : K) : ps.trScale x = (ps.map f).prod * x := by
  induction ps generalizing x with
  | nil => simp [Pipe.trScale]
  | cons q rest ih =>
    simp only [Pipe.trScale, List.foldl_cons, List.map_cons, List.prod_cons] at ih ⊢
    rw [ih (fun q' hq => h q' (List.mem_cons_of_mem _ hq)), h q List.mem_cons_self]
    ring

example : exPipe.trScale 4 = (exPipe.map fun q => if q.2 = 8 then 1 / 8 else 1).prod * 4 := by
  refine C06_scale_factors exPipe _ ?_ 4
  rw [exPipe_eq]
  intro q hq x
  simp only [List.mem_cons, List.not_mem_nil, or_false] at hq
  rcases hq with rfl | rfl
  · simp [exShift]
  · simp [exScale]; ring

example : let ps := Pipe.fit [(exShift, 0), (exScale, 0)] [3, 5, 11] ()
    ps.map Prod.snd = [3, 8] ∧ ps.tr 11 = 1 ∧ ps.inv 1 = 11 ∧ ps.trScale 4 = 1/2 ∧ ps.inv (ps.tr 5) = 5 := by
  decide +kernel

/-- The order matters (reversing the stages in `inverse_transform` is not optional). -/
example : let ps := Pipe.fit [(exShift, 0), (exScale, 0)] [3, 5, 11] ()
    ps.foldl (fun x q => q.1.inv q.2 x) (ps.tr 11) ≠ (11 : ℚ) := by decide +kernel

/-! ## C07 -/

/-- **C07** for any fitted affine map with positive scale: strictly increasing. -/
theorem C07_strictMono (m s : K) (hs : 0 < s) (y y' : Ext K) :
    ∃ z z', (PreY.aff m s).transform y = .ok z ∧ (PreY.aff m s).transform y' = .ok z' ∧
      Ext.lt z z' = Ext.lt y y' := by
  refine ⟨_, _, rfl, rfl, ?_⟩
  have hs' : ¬ s < 0 := not_lt.2 hs.le
  have hne := hs.ne'
  cases y <;> cases y' <;> simp [Ext.subFin, Ext.divFin, Ext.lt, hs', hne]
  rw [div_lt_div_iff_of_pos_right hs]
  constructor <;> intro h <;> linarith

example : ∃ z z', (PreY.aff (3 : ℚ) 2).transform .negInf = .ok z ∧ (PreY.aff (3 : ℚ) 2).transform (.fin 1) = .ok z' ∧
    Ext.lt z z' = true := C07_strictMono 3 2 (by norm_num) .negInf (.fin 1)

/-- **C07**: inverse and transform undo each other on finite numbers; scales are differences. -/
theorem C07_round_trip (m s : K) (hs : 0 < s) (y : K) :
    (∃ z, (PreY.aff m s).transform (.fin y) = .ok (.fin z) ∧ inverseY (.aff m s) z = .ok (.fin y)) ∧
    (∃ z, inverseY (.aff m s) y = .ok (.fin z) ∧ (PreY.aff m s).transform (.fin z) = .ok (.fin y)) := by
  have hne := hs.ne'
  constructor
  · refine ⟨(y - m) / s, ?_, ?_⟩
    · simp [PreY.transform, Ext.subFin, Ext.divFin, hne]
    · simp [inverseY, hne]
  · refine ⟨y * s + m, rfl, ?_⟩
    simp [PreY.transform, Ext.subFin, Ext.divFin, hne]

example : ∃ z, (PreY.aff (3 : ℚ) 2).transform (.fin 7) = .ok (.fin z) ∧ inverseY (.aff 3 2) z = .ok (.fin 7) :=
  (C07_round_trip 3 2 (by norm_num) 7).1

/-- **C07**: `transform(y) - transform(y') = transform_scale(y - y')`, and the scale is inverted. -/
theorem C07_scale (m s : K) (hs : 0 < s) (y y' : K) :
    ∃ z z' δ, (PreY.aff m s).transform (.fin y) = .ok (.fin z) ∧
      (PreY.aff m s).transform (.fin y') = .ok (.fin z') ∧
      (PreY.aff m s).transformScale (.fin (y - y')) = .ok (.fin δ) ∧ z - z' = δ ∧
      inverseScaleY (.aff m s) δ = .ok (.fin (y - y')) := by
  have hne := hs.ne'
  refine ⟨(y - m) / s, (y' - m) / s, (y - y') / s, ?_, ?_, ?_, ?_, ?_⟩
  · simp [PreY.transform, Ext.subFin, Ext.divFin, hne]
  · simp [PreY.transform, Ext.subFin, Ext.divFin, hne]
  · simp [PreY.transformScale, Ext.divFin, hne]
  · rw [← sub_div]; congr 1; ring
  · simp [inverseScaleY, hne]

example : ∃ z z' δ : ℚ, (PreY.aff (3 : ℚ) 2).transform (.fin 7) = .ok (.fin z) ∧
    (PreY.aff (3 : ℚ) 2).transform (.fin (-1)) = .ok (.fin z') ∧
    (PreY.aff (3 : ℚ) 2).transformScale (.fin (7 - -1)) = .ok (.fin δ) ∧ z - z' = δ ∧
    inverseScaleY (.aff (3 : ℚ) 2) δ = .ok (.fin (7 - -1)) := C07_scale 3 2 (by norm_num) 7 (-1)

theorem sum_map_affine (l : List K) (a b : K) : (l.map fun v => (v - a) / b).sum = (l.sum - l.length * a) / b := by
  induction l with
  | nil => simp
  | cons v l ih => simp only [List.map_cons, List.sum_cons, ih, List.length_cons, Nat.cast_add, Nat.cast_one]; ring

theorem sum_map_div (l : List K) (f : K → K) (b : K) : (l.map fun v => f v / b).sum = (l.map f).sum / b := by
  induction l with
  | nil => simp
  | cons v l ih => simp only [List.map_cons, List.sum_cons, ih]; ring

theorem sum_sq_nonneg (l : List K) (m : K) : 0 ≤ (l.map fun v => (v - m) * (v - m)).sum := by
  apply List.sum_nonneg
  intro x hx
  obtain ⟨v, _, rfl⟩ := List.mem_map.1 hx
  exact mul_self_nonneg _

theorem variance_pos {l : List K} {a b : K} (ha : a ∈ l) (hb : b ∈ l) (hab : a ≠ b) : 0 < variance l := by
  have hne : (0 : K) < l.length := by
    have : 0 < l.length := List.length_pos_of_mem ha
    exact_mod_cast this
  refine div_pos (lt_of_le_of_ne (sum_sq_nonneg l _) ?_) hne
  intro h0
  have hz : ∀ v ∈ l, (v - mean l) * (v - mean l) = 0 := by
    intro v hv
    by_contra hv0
    have hpos : 0 < (v - mean l) * (v - mean l) := lt_of_le_of_ne (mul_self_nonneg _) (Ne.symm hv0)
    have : (v - mean l) * (v - mean l) ≤ (l.map fun v => (v - mean l) * (v - mean l)).sum :=
      List.single_le_sum (by
        intro x hx
        obtain ⟨w, _, rfl⟩ := List.mem_map.1 hx
        exact mul_self_nonneg _) _ (List.mem_map.2 ⟨v, hv, rfl⟩)
    linarith
  have h1 := mul_self_eq_zero.1 (hz a ha)
  have h2 := mul_self_eq_zero.1 (hz b hb)
  exact hab (by linarith)

theorem mem_finPart {ys : List (Ext K)} {v : K} : v ∈ finPart ys ↔ Ext.fin v ∈ ys := by
  unfold finPart
  rw [List.mem_filterMap]
  constructor
  · rintro ⟨y, hy, h⟩
    cases y <;> simp at h
    subst h; exact hy
  · intro h; exact ⟨_, h, rfl⟩

/-- **C07**, standard mode: if the data have two different finite targets, `fit` succeeds with a positive
scale, and the transformed finite targets have mean 0 and variance 1. -/
theorem C07_normalize_moments (ys : List (Ext ℝ)) {a b : ℝ} (ha : Ext.fin a ∈ ys) (hb : Ext.fin b ∈ ys)
    (hab : a ≠ b) :
    ∃ m s, normFit Real.sqrt ys = .aff m s ∧ 0 < s ∧
      mean ((finPart ys).map fun v => (v - m) / s) = 0 ∧
      variance ((finPart ys).map fun v => (v - m) / s) = 1 := by
  have ha' := mem_finPart.2 ha
  have hb' := mem_finPart.2 hb
  have hv := variance_pos ha' hb' hab
  generalize hl : finPart ys = l at *
  have hne : l ≠ [] := List.ne_nil_of_mem ha'
  refine ⟨mean l, Real.sqrt (variance l), ?_, Real.sqrt_pos.2 hv, ?_⟩
  · unfold normFit
    rw [hl]
    cases l with
    | nil => exact absurd rfl hne
    | cons x xs => rfl
  have hlen : (l.length : ℝ) ≠ 0 := by
    simpa using hne
  have hs : Real.sqrt (variance l) ≠ 0 := (Real.sqrt_pos.2 hv).ne'
  have hm : mean (l.map fun v => (v - mean l) / Real.sqrt (variance l)) = 0 := by
    unfold mean at *
    rw [sum_map_affine, List.length_map]
    field_simp
    ring
  refine ⟨hm, ?_⟩
  unfold variance at *
  rw [hm]
  simp only [sub_zero, List.map_map, List.length_map]
  have : ((fun v => v * v) ∘ fun v => (v - mean l) / √((l.map fun v => (v - mean l) * (v - mean l)).sum / l.length)) =
      fun v => ((v - mean l) * (v - mean l)) / ((l.map fun v => (v - mean l) * (v - mean l)).sum / l.length) := by
    funext v
    simp only [Function.comp]
    rw [div_mul_div_comm, Real.mul_self_sqrt hv.le]
  rw [this, sum_map_div]
  have h2 := hv.ne'
  have h3 : (l.map fun v => (v - mean l) * (v - mean l)).sum ≠ 0 := by
    intro h; rw [h] at h2; simp at h2
  generalize (l.map fun v => (v - mean l) * (v - mean l)).sum = q at *
  field_simp

example : ∃ m s, normFit Real.sqrt [.fin 1, .negInf, .fin 2, .fin 7] = .aff m s ∧ 0 < s ∧
    mean ((finPart [.fin 1, .negInf, .fin 2, .fin 7]).map fun v => (v - m) / s) = 0 ∧
    variance ((finPart [.fin 1, .negInf, .fin 2, .fin 7]).map fun v => (v - m) / s) = 1 :=
  C07_normalize_moments [.fin 1, .negInf, .fin 2, .fin 7] (a := 1) (b := 7) (by simp) (by simp) (by norm_num)

/-- **C07**, `NormalizeChi2_y`: largest target goes to 1, the target `delta` below goes to 0. -/
theorem C07_chi2 (delta : K) (hd : 0 < delta) (ys : List (Ext K)) (hg : ∀ y ∈ ys, GPry.Gpr.Good y)
    {M : K} (hM : Ext.fin M ∈ ys) (hmax : ∀ v, Ext.fin v ∈ ys → v ≤ M) :
    ∃ q, chi2Fit delta ys = .ok q ∧ q.transform (.fin M) = .ok (.fin 1) ∧
      q.transform (.fin (M - delta)) = .ok (.fin 0) ∧
      ∀ t : K, ∃ t', q.transformScale (.fin t) = .ok (.fin t') ∧ t' * delta = t := by
  have hne := hd.ne'
  obtain ⟨N, hN, hNm, hNup⟩ := GPry.Gpr.npMax_good ys hg (List.ne_nil_of_mem hM)
  have hNM : N = .fin M := by
    have := hNup _ hM
    rcases hg N hNm with rfl | ⟨n, rfl⟩
    · simp [Ext.le] at this
    · have h2 := hmax n hNm
      simp [Ext.le] at this
      rw [le_antisymm h2 this]
  refine ⟨.aff (M - delta) delta, ?_, ?_, ?_, ?_⟩
  · unfold chi2Fit
    rw [GPry.Gpr.pyMax_eq_npMax ys hg, hN, hNM]
  · simp [PreY.transform, Ext.subFin, Ext.divFin, hne]
  · simp [PreY.transform, Ext.subFin, Ext.divFin, hne]
  · intro t
    exact ⟨t / delta, by simp [PreY.transformScale, Ext.divFin, hne], div_mul_cancel₀ _ hne⟩

example : chi2Fit (2 : ℚ) [.fin 1, .fin 7, .fin 3] = .ok (.aff 5 2) := by decide +kernel

/-- Order statistics of a sorted list. -/
theorem sorted_getD {s : List K} (hs : s.Pairwise (· ≤ ·)) {i j : ℕ} (hij : i ≤ j) (hj : j < s.length) (d e : K) :
    s.getD i d ≤ s.getD j e := by
  rw [List.getD_eq_getElem _ _ (by omega), List.getD_eq_getElem _ _ hj]
  rcases Nat.lt_or_eq_of_le hij with h | rfl
  · exact List.pairwise_iff_getElem.1 hs i j (by omega) hj h
  · exact le_rfl

/-- A percentile lies between the two order statistics next to its rank. -/
theorem percentile_bracket {s : List K} (hs : s.Pairwise (· ≤ ·)) (hne : s ≠ []) {q : ℕ} (hq : q ≤ 100) (d e : K) :
    s.getD (q * (s.length - 1) / 100) d ≤ percentile s q ∧
    percentile s q ≤ s.getD ((q * (s.length - 1) + 99) / 100) e := by
  have hlen : 0 < s.length := List.length_pos_of_ne_nil hne
  have hk : q * (s.length - 1) ≤ 100 * (s.length - 1) := Nat.mul_le_mul_right _ hq
  unfold percentile
  dsimp only
  obtain ⟨j, hj⟩ : ∃ j, j = q * (s.length - 1) := ⟨_, rfl⟩
  rw [← hj] at hk ⊢
  have ha : s.getD (j / 100) d = s.getD (j / 100) 0 := by
    rw [List.getD_eq_getElem _ _ (by omega), List.getD_eq_getElem _ _ (by omega)]
  have hf0 : (0 : K) ≤ ((j % 100 : ℕ) : K) / 100 := by positivity
  have hf1 : ((j % 100 : ℕ) : K) / 100 ≤ 1 := by
    rw [div_le_one (by norm_num)]
    have : j % 100 ≤ 100 := by omega
    exact_mod_cast this
  by_cases h0 : j % 100 = 0
  · have he : s.getD ((j + 99) / 100) e = s.getD (j / 100) 0 := by
      have : (j + 99) / 100 = j / 100 := by omega
      rw [this, List.getD_eq_getElem _ _ (by omega), List.getD_eq_getElem _ _ (by omega)]
    rw [ha, he, h0]
    simp
  · have hi : (j + 99) / 100 = j / 100 + 1 := by omega
    have hlast : j / 100 + 1 < s.length := by omega
    have hb : s.getD (j / 100 + 1) (s.getD (j / 100) 0) = s.getD ((j + 99) / 100) e := by
      rw [hi, List.getD_eq_getElem _ _ hlast, List.getD_eq_getElem _ _ hlast]
    have hab : s.getD (j / 100) 0 ≤ s.getD ((j + 99) / 100) e :=
      sorted_getD hs (by omega) (by omega) _ _
    rw [ha, hb]
    constructor
    · nlinarith
    · nlinarith

theorem percentile_mono {s : List K} (hs : s.Pairwise (· ≤ ·)) (hne : s ≠ []) {q q' : ℕ} (hqq : q ≤ q') (hq : q' ≤ 100) :
    percentile s q ≤ percentile s q' := by
  have hlen : 0 < s.length := List.length_pos_of_ne_nil hne
  have hk : q' * (s.length - 1) ≤ 100 * (s.length - 1) := Nat.mul_le_mul_right _ hq
  have hj : q * (s.length - 1) ≤ q' * (s.length - 1) := Nat.mul_le_mul_right _ hqq
  rcases Nat.lt_or_ge (q * (s.length - 1) / 100) (q' * (s.length - 1) / 100) with h | h
  · refine (percentile_bracket hs hne (by omega) 0 0).2.trans (le_trans ?_ (percentile_bracket hs hne hq 0 0).1)
    exact sorted_getD hs (by omega) (by omega) _ _
  · unfold percentile
    dsimp only
    obtain ⟨j, hj1⟩ : ∃ j, j = q * (s.length - 1) := ⟨_, rfl⟩
    obtain ⟨j', hj2⟩ : ∃ j', j' = q' * (s.length - 1) := ⟨_, rfl⟩
    rw [← hj1, ← hj2] at h hj ⊢
    rw [← hj2] at hk
    have heq : j / 100 = j' / 100 := by omega
    have hr : ((j % 100 : ℕ) : K) / 100 ≤ ((j' % 100 : ℕ) : K) / 100 := by
      have : j % 100 ≤ j' % 100 := by omega
      have h2 : ((j % 100 : ℕ) : K) ≤ ((j' % 100 : ℕ) : K) := by exact_mod_cast this
      exact div_le_div_of_nonneg_right h2 (by norm_num)
    rw [heq]
    have hab : 0 ≤ s.getD (j' / 100 + 1) (s.getD (j' / 100) 0) - s.getD (j' / 100) 0 := by
      by_cases hlast : j' / 100 + 1 < s.length
      · exact sub_nonneg.2 (sorted_getD hs (by omega) hlast _ _)
      · rw [List.getD_eq_default _ _ (show s.length ≤ j' / 100 + 1 by omega)]; simp
    have := mul_le_mul_of_nonneg_left hr hab
    linarith

/-- **C07**, median mode: with at least one finite target, `fit` succeeds; the centre is a median of the finite targets
(at least half of them, counted as `⌊(n-1)/2⌋ + 1` out of `n`, are at or below it, and as many at or above it); and the
scale, difference between the third and the first quartile, is not negative. (It can be zero:
`C07_median_counterexample`.) -/
theorem C07_median (ys : List (Ext K)) (hne : finPart ys ≠ []) :
    ∃ m q1 q3, normFitMedian ys = .aff m (q3 - q1) ∧ q1 ≤ m ∧ m ≤ q3 ∧
      ((finPart ys).length - 1) / 2 + 1 ≤ (finPart ys).countP (· ≤ m) ∧
      ((finPart ys).length - 1) / 2 + 1 ≤ (finPart ys).countP (m ≤ ·) ∧
      ((finPart ys).length - 1) / 4 + 1 ≤ (finPart ys).countP (· ≤ q1) ∧
      ((finPart ys).length - 1) / 4 + 1 ≤ (finPart ys).countP (q3 ≤ ·) ∧
      (finPart ys).length - 1 - ((finPart ys).length - 1) / 4 ≤ (finPart ys).countP (q1 ≤ ·) ∧
      3 * ((finPart ys).length - 1) / 4 + 1 ≤ (finPart ys).countP (· ≤ q3) := by
  obtain ⟨l, hl⟩ : ∃ l, l = finPart ys := ⟨_, rfl⟩
  rw [← hl] at hne ⊢
  obtain ⟨s, hs⟩ : ∃ s, s = l.insertionSort (· ≤ ·) := ⟨_, rfl⟩
  have hperm : s.Perm l := hs ▸ List.perm_insertionSort _ l
  have hsort : s.Pairwise (· ≤ ·) := hs ▸ List.pairwise_insertionSort _ l
  have hslen : s.length = l.length := hperm.length_eq
  have hlen : 0 < l.length := List.length_pos_of_ne_nil hne
  have hsne : s ≠ [] := by intro h; rw [h] at hslen; simp at hslen; omega
  -- counting in the sorted list
  have hle : ∀ (k : ℕ) (x : K), k < s.length → s.getD k 0 ≤ x → k + 1 ≤ l.countP (· ≤ x) := by
    intro k x hk hx
    rw [← hperm.countP_eq]
    have h1 : (s.take (k + 1)).countP (· ≤ x) = k + 1 := by
      rw [List.countP_eq_length.2, List.length_take]
      · omega
      · intro a ha
        obtain ⟨i, hi, rfl⟩ := List.getElem_of_mem ha
        rw [List.length_take] at hi
        have := sorted_getD hsort (i := i) (j := k) (by omega) hk 0 0
        rw [List.getD_eq_getElem _ _ (by omega)] at this
        simp only [List.getElem_take, decide_eq_true_eq]
        exact this.trans hx
    have h2 := (List.take_sublist (k + 1) s).countP_le (p := fun a => decide (a ≤ x))
    omega
  have hge : ∀ (k : ℕ) (x : K), k < s.length → x ≤ s.getD k 0 → s.length - k ≤ l.countP (x ≤ ·) := by
    intro k x hk hx
    rw [← hperm.countP_eq]
    have h1 : (s.drop k).countP (x ≤ ·) = s.length - k := by
      rw [List.countP_eq_length.2, List.length_drop]
      intro a ha
      obtain ⟨i, hi, rfl⟩ := List.getElem_of_mem ha
      rw [List.length_drop] at hi
      have := sorted_getD hsort (i := k) (j := k + i) (by omega) (by omega) 0 0
      rw [List.getD_eq_getElem _ (n := k + i) _ (by omega)] at this
      simp only [List.getElem_drop, decide_eq_true_eq]
      exact hx.trans this
    have h2 := (List.drop_sublist k s).countP_le (p := fun a => decide (x ≤ a))
    omega
  have hfit : normFitMedian ys = .aff (percentile s 50) (percentile s 75 - percentile s 25) := by
    unfold normFitMedian
    rw [← hl]
    cases l with
    | nil => exact absurd rfl hne
    | cons a t => simp only; rw [← hs]
  have b25 := percentile_bracket hsort hsne (q := 25) (by omega) 0 0
  have b50 := percentile_bracket hsort hsne (q := 50) (by omega) 0 0
  have b75 := percentile_bracket hsort hsne (q := 75) (by omega) 0 0
  refine ⟨_, _, _, hfit, percentile_mono hsort hsne (by omega) (by omega),
    percentile_mono hsort hsne (by omega) (by omega), ?_, ?_, ?_, ?_, ?_, ?_⟩
  · have := hle _ _ (by omega) b50.1; omega
  · have := hge _ _ (by omega) b50.2; omega
  · have := hle _ _ (by omega) b25.1; omega
  · have := hge _ _ (by omega) b75.2; omega
  · have := hge _ _ (by omega) b25.2; omega
  · have := hle _ _ (by omega) b75.1; omega

example : ∃ m q1 q3, normFitMedian (K := ℚ) [.fin 4, .fin 0, .negInf, .fin 2, .fin 10] = .aff m (q3 - q1) ∧ q1 ≤ m ∧ m ≤ q3 := by
  obtain ⟨m, q1, q3, h, h1, h2, -⟩ := C07_median (K := ℚ) [.fin 4, .fin 0, .negInf, .fin 2, .fin 10] (by decide +kernel)
  exact ⟨m, q1, q3, h, h1, h2⟩

/-- **C07** is false for `use_median=True`: data with positive spread whose inter-quartile range is zero,
so that the transform of the centre is NaN and everything else is infinite. -/
theorem C07_median_counterexample :
    normFitMedian (K := ℚ) [.fin 0, .fin 0, .fin 0, .fin 0, .fin 10] = .aff 0 0 ∧
    (normFitMedian (K := ℚ) [.fin 0, .fin 0, .fin 0, .fin 0, .fin 10]).transform (.fin 0) = .ok .nan := by
  decide +kernel

example : normFitMedian (K := ℚ) [.fin 4, .fin 0, .negInf, .fin 2, .fin 10] = .aff 3 4 := by decide +kernel

example : ∃ ys : List (Ext ℝ), Ext.fin 1 ∈ ys ∧ Ext.fin 2 ∈ ys ∧ Ext.negInf ∈ ys :=
  ⟨[.fin 1, .negInf, .fin 2], by simp⟩

/-! ## C08: whitening -/

open Matrix

/-- A rotated basis and the eigenvalues of a covariance matrix, used in the examples. -/
noncomputable def exV : Matrix (Fin 2) (Fin 2) ℝ := !![4/5, 3/5; -3/5, 4/5]
noncomputable def exL : Fin 2 → ℝ := ![3, 1]

theorem exV_orth : exVᵀ * exV = 1 := by
  ext i j; fin_cases i <;> fin_cases j <;> simp [exV, Matrix.mul_apply, Fin.sum_univ_two] <;> norm_num

theorem exL_pos : ∀ i, 0 < exL i := by intro i; fin_cases i <;> simp [exL]

/-- **C08**: with an orthogonal eigenbasis and positive eigenvalues, `transform` and `inverse_transform`
undo each other. -/
theorem C08_round_trip (l : Fin d → ℝ) (V : Matrix (Fin d) (Fin d) ℝ) (hV : Vᵀ * V = 1) (hl : ∀ i, 0 < l i)
    (m x : Fin d → ℝ) : unwhiten l V m (whiten l V m x) = x ∧ whiten l V m (unwhiten l V m x) = x := by
  have hV' : V * Vᵀ = 1 := mul_eq_one_comm.1 hV
  have hs : ∀ i, Real.sqrt (l i) ≠ 0 := fun i => (Real.sqrt_pos.2 (hl i)).ne'
  have h1 : whitenInv l V * whitenMat l V = 1 := by
    unfold whitenInv whitenMat
    rw [Matrix.mul_assoc, ← Matrix.mul_assoc (diagonal _) (diagonal _), diagonal_mul_diagonal]
    simp only [mul_inv_cancel₀ (hs _)]
    rw [Matrix.diagonal_one, Matrix.one_mul, hV']
  have h2 : whitenMat l V * whitenInv l V = 1 := mul_eq_one_comm.1 h1
  constructor
  · simp [unwhiten, whiten, Matrix.mulVec_mulVec, h1]
  · simp [unwhiten, whiten, Matrix.mulVec_mulVec, h2]

example : unwhiten exL exV ![1, 2] (whiten exL exV ![1, 2] ![5, -3]) = ![5, -3] :=
  (C08_round_trip exL exV exV_orth exL_pos ![1, 2] ![5, -3]).1

/-- **C08**: whitening a covariance gives the identity. -/
theorem C08_identity_covariance (l : Fin d → ℝ) (V Cov : Matrix (Fin d) (Fin d) ℝ) (hV : Vᵀ * V = 1)
    (hl : ∀ i, 0 < l i) (hC : Cov = V * diagonal l * Vᵀ) :
    whitenMat l V * Cov * (whitenMat l V)ᵀ = 1 := by
  have hs : ∀ i, Real.sqrt (l i) ≠ 0 := fun i => (Real.sqrt_pos.2 (hl i)).ne'
  subst hC
  unfold whitenMat
  rw [transpose_mul, transpose_transpose, diagonal_transpose]
  have : diagonal (fun i => (√(l i))⁻¹) * Vᵀ * (V * diagonal l * Vᵀ) * (V * diagonal fun i => (√(l i))⁻¹) =
      diagonal (fun i => (√(l i))⁻¹) * (Vᵀ * V) * diagonal l * (Vᵀ * V) * diagonal fun i => (√(l i))⁻¹ := by
    simp only [Matrix.mul_assoc]
  rw [this, hV, Matrix.mul_one, Matrix.mul_one, diagonal_mul_diagonal, diagonal_mul_diagonal, ← diagonal_one]
  congr 1
  funext i
  have := Real.mul_self_sqrt (hl i).le
  field_simp [hs i]
  rw [sq, this]

example : whitenMat exL exV * !![57/25, -24/25; -24/25, 43/25] * (whitenMat exL exV)ᵀ = 1 := by
  refine C08_identity_covariance exL exV _ exV_orth exL_pos ?_
  ext i j
  rw [Matrix.mul_apply, Fin.sum_univ_two, Matrix.mul_diagonal, Matrix.mul_diagonal]
  fin_cases i <;> fin_cases j <;> simp [exV, exL] <;> norm_num

/-- **C73**: `transform_bounds` encloses the transform of every point within the bounds. -/
theorem C73_bounds_enclose (l : Fin d → ℝ) (V : Matrix (Fin d) (Fin d) ℝ) (m lo hi x : Fin d → ℝ)
    (hx : ∀ j, lo j ≤ x j ∧ x j ≤ hi j) (i : Fin d) :
    (whitenBounds l V m lo hi i).1 ≤ whiten l V m x i ∧ whiten l V m x i ≤ (whitenBounds l V m lo hi i).2 := by
  set T := whitenMat l V with hT
  have expand : ∀ z : Fin d → ℝ, whiten l V m z i = ∑ j, T i j * (z j - m j) := by
    intro z; simp [whiten, Matrix.mulVec, dotProduct, hT]
  constructor
  · refine le_trans (Finset.inf'_le _ (Finset.mem_univ fun j => decide (T i j < 0))) ?_
    rw [expand, expand]
    apply Finset.sum_le_sum
    intro j _
    obtain ⟨h1, h2⟩ := hx j
    by_cases hj : T i j < 0
    · simp only [vertex, hj, decide_true, if_true]; nlinarith
    · simp only [vertex, hj, decide_false]; simp; nlinarith [not_lt.1 hj]
  · refine le_trans ?_ (Finset.le_sup' _ (Finset.mem_univ fun j => decide (0 ≤ T i j)))
    rw [expand, expand]
    apply Finset.sum_le_sum
    intro j _
    obtain ⟨h1, h2⟩ := hx j
    by_cases hj : 0 ≤ T i j
    · simp only [vertex, hj, decide_true, if_true]; nlinarith
    · simp only [vertex, hj, decide_false]; simp; nlinarith [not_le.1 hj]

example : (whitenBounds exL exV ![1, 2] ![0, 0] ![5, 5] 1).1 ≤ whiten exL exV ![1, 2] ![4, 1] 1 ∧
    whiten exL exV ![1, 2] ![4, 1] 1 ≤ (whitenBounds exL exV ![1, 2] ![0, 0] ![5, 5] 1).2 :=
  C73_bounds_enclose exL exV ![1, 2] ![0, 0] ![5, 5] ![4, 1] (by intro j; fin_cases j <;> norm_num) 1

/-- **C73**: and they are tight: each is attained at a point within the bounds. -/
theorem C73_bounds_tight (l : Fin d → ℝ) (V : Matrix (Fin d) (Fin d) ℝ) (m lo hi : Fin d → ℝ)
    (hb : ∀ j, lo j ≤ hi j) (i : Fin d) :
    (∃ x, (∀ j, lo j ≤ x j ∧ x j ≤ hi j) ∧ whiten l V m x i = (whitenBounds l V m lo hi i).1) ∧
    (∃ x, (∀ j, lo j ≤ x j ∧ x j ≤ hi j) ∧ whiten l V m x i = (whitenBounds l V m lo hi i).2) := by
  have hv : ∀ c, ∀ j, lo j ≤ vertex lo hi c j ∧ vertex lo hi c j ≤ hi j := by
    intro c j
    unfold vertex
    split <;> simp [hb j]
  constructor
  · obtain ⟨c, _, hc⟩ := Finset.exists_mem_eq_inf' (Finset.univ_nonempty (α := Fin d → Bool))
      (fun c => whiten l V m (vertex lo hi c) i)
    exact ⟨_, hv c, hc.symm⟩
  · obtain ⟨c, _, hc⟩ := Finset.exists_mem_eq_sup' (Finset.univ_nonempty (α := Fin d → Bool))
      (fun c => whiten l V m (vertex lo hi c) i)
    exact ⟨_, hv c, hc.symm⟩

example : ∃ x, (∀ j, ![0, 0] j ≤ x j ∧ x j ≤ ![5, 5] j) ∧ whiten exL exV ![1, 2] x 1 = (whitenBounds exL exV ![1, 2] ![0, 0] ![5, 5] 1).2 :=
  (C73_bounds_tight exL exV ![1, 2] ![0, 0] ![5, 5] (by intro j; fin_cases j <;> norm_num) 1).2

/-! ## C71: learning the whitening transformation -/

/-- **C71**, negation: whatever the samples and the (positive) weights, learning the whitening
transformation either raises (number of samples different from the dimension) or is done with a singular
matrix, for which there is no whitening. -/
theorem C71_learn_never_works {n : ℕ} (X : Matrix (Fin n) (Fin d) K) (w : Fin n → K) (hd : 0 < d)
    (hw : ∀ i, 0 < w i) :
    (n ≠ d ∧ learnCov X w = none) ∨ ∃ Cov, learnCov X w = some Cov ∧ Cov.det = 0 := by
  by_cases h : n = d
  · right
    subst h
    refine ⟨_, by unfold learnCov npCov; rw [dif_pos rfl]; rfl, ?_⟩
    set tot := ∑ j, w (Fin.cast rfl j) with htot
    have htot0 : tot ≠ 0 := by
      have : 0 < tot := Finset.sum_pos (fun i _ => hw _) ⟨⟨0, hd⟩, Finset.mem_univ _⟩
      exact this.ne'
    -- deviations from the weighted mean of the columns
    set D : Matrix (Fin n) (Fin n) K := fun a j => X a j - (∑ j, w (Fin.cast rfl j) * X a j) / tot with hD
    have hker : D *ᵥ (fun j => w j) = 0 := by
      funext a
      simp only [Matrix.mulVec, dotProduct, hD, Pi.zero_apply, sub_mul, Finset.sum_sub_distrib]
      rw [← Finset.mul_sum]
      have h1 : ∑ j, X a j * w j = ∑ j, w (Fin.cast rfl j) * X a j :=
        Finset.sum_congr rfl fun j _ => mul_comm _ _
      have h2 : ∑ j, w j = tot := rfl
      rw [h1, h2, div_mul_cancel₀ _ htot0, sub_self]
    have hdet : D.det = 0 := by
      refine Matrix.exists_mulVec_eq_zero_iff.1 ⟨fun j => w j, ?_, hker⟩
      intro h0
      have := congrFun h0 ⟨0, hd⟩
      exact (hw _).ne' this
    have : (fun a b => (∑ j, w (Fin.cast rfl j) * (X a j - (∑ j, w (Fin.cast rfl j) * X a j) / tot) *
        (X b j - (∑ j, w (Fin.cast rfl j) * X b j) / tot)) / tot : Matrix (Fin n) (Fin n) K) =
        D * (Matrix.diagonal (fun j => w j / tot) * Dᵀ) := by
      ext a b
      rw [Matrix.mul_apply, Finset.sum_div]
      refine Finset.sum_congr rfl fun j _ => ?_
      rw [Matrix.diagonal_mul, Matrix.transpose_apply]
      simp only [hD, Fin.cast_eq_self]
      ring
    rw [this, Matrix.det_mul, hdet, zero_mul]
  · left
    refine ⟨h, ?_⟩
    unfold learnCov npCov
    rw [dif_neg h]

example : ∃ Cov, learnCov (K := ℚ) !![0, 1; 1, 5] ![1, 2] = some Cov ∧ Cov.det = 0 :=
  (C71_learn_never_works !![0, 1; 1, 5] ![1, 2] (by norm_num) (by decide +kernel)).resolve_left (by simp)

/-- Three samples in two dimensions: raises. -/
example : learnCov (K := ℚ) !![0, 0; 1, 0; 0, 1] ![1, 1, 1] = none := by
  unfold learnCov npCov; rw [dif_neg (by decide)]

/-! ## C72: degenerate targets -/

section
open GPry.Gpr
variable {P PX Θ : Type*}

theorem normFit_const (sqrt : K → K) (h0 : sqrt 0 = 0) (v : K) (ys : List (Ext K))
    (h : ∀ w ∈ finPart ys, w = v) : normFit sqrt ys = .nanAff ∧ finPart ys = [] ∨ normFit sqrt ys = .aff v 0 := by
  unfold normFit
  generalize finPart ys = l at h ⊢
  cases l with
  | nil => left; simp
  | cons a l =>
    right
    have hl : a :: l = List.replicate (l.length + 1) v := by
      rw [List.eq_replicate_iff]; exact ⟨rfl, h⟩
    have hn : ((l.length + 1 : ℕ) : K) ≠ 0 := Nat.cast_ne_zero.2 (Nat.succ_ne_zero _)
    have hm : mean (a :: l) = v := by
      rw [hl]; simp only [mean, List.sum_replicate, List.length_replicate, nsmul_eq_mul]
      field_simp
    have hv : variance (a :: l) = 0 := by
      unfold variance; rw [hm, hl]; simp
    simp only [hm, hv, h0]

/-- Auxiliary form of C72 in terms of the mask. -/
theorem equal_targets_aux (sqrt : K → K) (h0 : sqrt 0 = 0) {cfg : Cfg P PX Θ K}
    (hfit : ∀ q xs ys, cfg.fitY q xs ys = .ok (normFit sqrt ys)) (hu : cfg.useSvm = true)
    {st : State P PX Θ K} {c : Call P K} (hfc : c.fitClf = true ∨ c.fit ≠ .no) (v : K)
    (heq : ∀ T mask, diffThresholdKeepN cfg.eps (st.yAll ++ c.ys) cfg.keepMin cfg.thr = .ok T →
      isFiniteAll T (st.yAll ++ c.ys) = .ok mask →
      ∀ w, Ext.fin w ∈ maskL mask (st.yAll ++ c.ys) → w = v)
    (hne : st.yAll ++ c.ys ≠ []) :
    (append cfg st c).2 ≠ none := by
  intro hnone
  have h : append cfg st c = ((append cfg st c).1, none) := by rw [← hnone]
  obtain ⟨_, nz, noise, T, mask, _, _, hcls, hmid⟩ := append_ok h
  rw [if_pos hu] at hcls
  obtain ⟨_, py, yAll', noise', svm, lastMask, hpy, hy', _, hsvm, _⟩ := appendMid_ok hmid
  have hfc' : (c.fitClf || c.fit != .no) = true := by rcases hfc with h | h <;> simp [h]
  rw [if_pos ⟨hu, hfc'⟩] at hsvm
  rw [if_pos hfc', hfit] at hpy
  obtain ⟨thr', hthr', hs⟩ := hsvm
  have hk := heq T mask hcls.1 hcls.2
  set ys := st.yAll ++ c.ys with hys
  have hml : mask.length = ys.length := by
    have := hcls.2
    unfold isFiniteAll at this
    split at this
    · simp at this
    · cases this; simp
  simp only [Except.ok.injEq] at hpy
  have hmem : ∀ w ∈ finPart (maskL mask ys), w = v := fun w hw => hk w (mem_finPart.1 hw)
  -- no transformed target is a finite number
  have hnf : ∀ i (hi : i < ys.length) (hi' : i < mask.length), mask[i] = true →
      ∀ y', yAll'[i]? = some y' → y'.isFinite = false := by
    intro i hi hi' hmi y' hy'i
    have hin : ∀ (m : List Bool) (l : List (Ext K)) (i : ℕ) (hi : i < l.length) (hi' : i < m.length),
        m[i] = true → l[i] ∈ maskL m l := by
      intro m
      induction m with
      | nil => intro l i hi hi'; simp at hi'
      | cons b m ih =>
        intro l i hi hi' hb
        cases l with
        | nil => simp at hi
        | cons x l =>
          cases i with
          | zero => simp at hb; subst hb; simp [maskL]
          | succ i =>
            simp at hb
            have := ih l i (by simpa using hi) (by simpa using hi') hb
            cases b <;> simp [maskL, this]
    have hyi := hin mask ys i hi hi' hmi
    rcases mapE_transform hy' hne with ⟨m, s, rfl, rfl⟩ | ⟨rfl, rfl⟩
    · rcases normFit_const sqrt h0 v _ hmem with ⟨h1, _⟩ | h1
      · rw [h1] at hpy; simp at hpy
      · rw [h1] at hpy
        simp only [PreY.aff.injEq] at hpy
        obtain ⟨rfl, rfl⟩ := hpy
        rw [List.getElem?_map, List.getElem?_eq_getElem hi] at hy'i
        simp only [Option.map_some, Option.some.injEq] at hy'i
        subst hy'i
        cases hc : ys[i] with
        | fin w =>
          simp only [Ext.subFin, Ext.divFin, if_true]
          split_ifs <;> rfl
        | negInf => simp [Ext.subFin, Ext.divFin, Ext.isFinite]
        | posInf => simp [Ext.subFin, Ext.divFin, Ext.isFinite]
        | nan => simp [Ext.subFin, Ext.divFin, Ext.isFinite]
    · rw [List.getElem?_map] at hy'i
      cases hq : ys[i]? with
      | none => rw [hq] at hy'i; simp at hy'i
      | some q => rw [hq] at hy'i; simp at hy'i; subst hy'i; rfl
  rcases svm_fit_any hs with ⟨hall, hf⟩ | ⟨hall, hany, M, hM, hf⟩
  · -- everything `-inf` after the transformation
    have hmask0 : ∀ b ∈ mask, b = false := by
      rw [hf]; intro b hb; obtain ⟨_, _, rfl⟩ := List.mem_map.1 hb; rfl
    have hmL : maskL mask ys = [] := by
      have := maskL_length mask ys hml
      rw [List.count_eq_zero.2 (fun ht => by simpa using hmask0 _ ht)] at this
      exact List.length_eq_zero_iff.1 this
    rw [hmL] at hpy
    have : py = .nanAff := by rw [← hpy]; rfl
    subst this
    rcases mapE_transform hy' hne with ⟨m, s, h1, _⟩ | ⟨_, rfl⟩
    · simp at h1
    · cases hq : ys with
      | nil => exact hne hq
      | cons a l => rw [hq] at hall; simp [Ext.eqv, Ext.le] at hall
  · rw [List.any_eq_true] at hany
    obtain ⟨b, hb, hbt⟩ := hany
    simp only [id] at hbt
    subst hbt
    obtain ⟨i, hi, hib⟩ := List.getElem_of_mem hb
    have hi2 : i < ys.length := hml ▸ hi
    have hlen : yAll'.length = mask.length := by rw [hf]; simp
    have hi3 : i < yAll'.length := hlen ▸ hi
    have h1 := hnf i hi2 hi hib yAll'[i] (List.getElem?_eq_getElem hi3)
    have h2 : mask[i]? = some (isFiniteRaw thr' M yAll'[i]) := by
      conv_lhs => rw [hf]
      rw [List.getElem?_map, List.getElem?_eq_getElem hi3]; rfl
    rw [List.getElem?_eq_getElem hi, hib] at h2
    simp [isFiniteRaw, h1] at h2

theorem mem_maskL {α : Type*} : ∀ (m : List Bool) (l : List α) (x : α), x ∈ maskL m l →
    ∃ i, ∃ (h : i < l.length) (h' : i < m.length), m[i] = true ∧ l[i] = x := by
  intro m
  induction m with
  | nil => intro l x h; cases l <;> simp [maskL] at h
  | cons b m ih =>
    intro l x h
    cases l with
    | nil => cases b <;> simp [maskL] at h
    | cons a l =>
      have hrec : x ∈ maskL m l → ∃ i, ∃ (h : i < (a :: l).length) (h' : i < (b :: m).length),
          (b :: m)[i] = true ∧ (a :: l)[i] = x := by
        intro hx
        obtain ⟨i, h1, h2, h3, h4⟩ := ih l x hx
        exact ⟨i + 1, by simpa using h1, by simpa using h2, by simpa using h3, by simpa using h4⟩
      cases b with
      | true =>
        simp only [maskL, List.mem_cons] at h
        rcases h with rfl | h
        · exact ⟨0, by simp, by simp, rfl, rfl⟩
        · exact hrec h
      | false => exact hrec (by simpa [maskL] using h)

/-- **C72**, negation: with `Normalize_y` (default mode) as target preprocessor, an `append_to_data` call that
refits, and after which the targets to be kept for training are all equal (several, one or none), always
raises, whatever the state it is applied to (targets real or `-inf`). -/
theorem C72_equal_targets_raise (sqrt : K → K) (h0 : sqrt 0 = 0) {cfg : Cfg P PX Θ K} (hc : CfgOk cfg)
    (hfit : ∀ q xs ys, cfg.fitY q xs ys = .ok (normFit sqrt ys)) (hu : cfg.useSvm = true)
    {st : State P PX Θ K} {c : Call P K} (hfc : c.fitClf = true ∨ c.fit ≠ .no)
    (hg : ∀ y ∈ st.yAll ++ c.ys, Good y) (hne : st.yAll ++ c.ys ≠ []) (v : K)
    (heq : ∀ w, Ext.fin w ∈ st.yAll ++ c.ys → Kept cfg.thr cfg.keepMin cfg.eps (st.yAll ++ c.ys) (.fin w) → w = v) :
    (append cfg st c).2 ≠ none := by
  refine equal_targets_aux sqrt h0 hfit hu hfc v ?_ hne
  intro T mask hT hm w hw
  obtain ⟨hl, hspec⟩ := mask_spec hc (fun _ => hg) (thrKeep := T) (mask := mask) (by rw [if_pos hu]; exact ⟨hT, hm⟩)
  obtain ⟨i, h1, h2, h3, h4⟩ := mem_maskL _ _ _ hw
  have := (hspec i h1 h2).1 h3 hu
  rw [h4] at this
  exact heq w (h4 ▸ List.getElem_mem h1) this

/-- Any `sqrt` with `sqrt 0 = 0` will do; here the identity. A regressor with `Normalize_y`. -/
def exCfgN : Cfg ℕ Unit ℕ ℚ := {
  useSvm := true, keepMin := 2, thr := .fin 20, eps := 1 / 1000000, fitX := fun _ _ _ => (), trX := fun _ x => x,
  fitY := fun _ _ ys => .ok (normFit id ys), nRestarts := 1, canOptimise := true,
  optimise := fun xs _ _ _ _ => xs.length, cholOk := fun _ _ _ => true }

/-- **C72**, witnesses: all targets `-inf`; a single finite target. Two different finite ones are fine. -/
theorem C72_counterexamples :
    (append exCfgN (State.init () .unfitted (.scalar 1)) { batch := some ([1, 2], [.negInf, .negInf]) }).2 =
      some .valueError ∧
    (append exCfgN (State.init () .unfitted (.scalar 1)) { batch := some ([1, 2], [.negInf, .fin 3]) }).2 ≠ none ∧
    (append exCfgN (State.init () .unfitted (.scalar 1)) { batch := some ([1, 2], [.fin 1, .fin 3]) }).2 = none := by
  decide +kernel

end

end GPry.Pre
