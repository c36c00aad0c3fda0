import Verif.DiagProps

set_option linter.all false

/-!
# What the diagnosis callback prints about failed tests (gpry/diag.py 58-91)

Besides the verdicts of `Diag.lean`, the callback prints subtests if a verdict is negative: for the classifier, the positions, values and
classification of the points at which two classifications differ; for the training sets, the answers to two questions.

`is_finite` (gpr.py:509, with a fixed threshold) and `predict_is_finite` act on each value or point by itself, so they are functions here.
Simplified: labels of lines are short strings; the table of the training set is not a line.
-/

namespace GPry.Diag

/-- Lines printed. -/
inductive Line (K : Type)
  | verdict (label : String) (answer : Bool)
  | bad (positions : List ℕ)
  | values (ys : List K)
  | flags (fs : List Bool)
deriving DecidableEq, Repr

/-- diag.py:48-51 `y_finite == other`, entry by entry. -/
def agree (a b : List Bool) : List Bool := List.zipWith (fun x y => x == y) a b

/-- diag.py:67, 73 `[i for i, val in enumerate(consistent) if not val]` -/
def badAt (c : List Bool) : List ℕ := (c.zipIdx.filter fun p => !p.1).map Prod.snd

/-- `l[positions]` -/
def takeAt {α : Type} (l : List α) (ps : List ℕ) : List α := ps.filterMap fun i => l[i]?

/-- diag.py:65-70 and 71-79: one subtest; `again` is the classification computed anew at the bad points. -/
def subtest {K : Type} (label : String) (c : List Bool) (ys : List K) (again : List ℕ → List Bool) : List (Line K) :=
  .verdict label (c.all id) :: if c.all id then [] else [.bad (badAt c), .values (takeAt ys (badAt c)), .flags (again (badAt c))]

section
variable {K : Type} [DecidableEq K] [LinearOrder K]

/-- diag.py:46-80, for the smallest value `m` among the points taken as those of the regressor. -/
def classifierLines (d : Data K) (isFin : K → Bool) (pred : List K → Bool) (m : K) : List (Line K) :=
  let c1 := agree d.yFinite (d.yAll.map isFin)
  let c2 := agree d.yFinite (d.XAll.map pred)
  let ok := c1.all id && c2.all id && decide (d.threshold < m)
  .verdict "self consistent" ok :: if ok then [] else
    subtest "is_finite" c1 d.yAll (fun ps => (takeAt d.yAll ps).map isFin) ++
    subtest "predict" c2 d.yAll (fun ps => (takeAt d.XAll ps).map pred) ++
    [.verdict "threshold" (decide (d.threshold < m))]

/-- diag.py:81-91: the verdict on the training sets and the two questions, with the answers printed for them. -/
def setLines (d : Data K) : List (Line K) :=
  let allIn := (select d.XAll d.isFinite).all (npIn d.X)
  let same := decide ((inGP d).count true = d.y.length)
  .verdict "sets consistent" (allIn && same) :: if allIn && same then [] else
    [.verdict "are finite points missing from GP?" allIn, .verdict "are there more points in GP and finite?" same]
end

theorem mem_badAt {c : List Bool} {i : ℕ} : i ∈ badAt c ↔ c[i]? = some false := by
  unfold badAt
  simp only [List.mem_map, List.mem_filter, Prod.exists, exists_eq_right, Bool.not_eq_eq_eq_not, Bool.not_true, exists_eq_right_right, existsAndEq]
  constructor
  · intro h
    exact List.mem_zipIdx_iff_getElem?.1 h
  · intro h
    exact List.mem_zipIdx_iff_getElem?.2 h

theorem agree_get (a b : List Bool) (i : ℕ) : (agree a b)[i]? = some false ↔ ∃ x, a[i]? = some x ∧ b[i]? = some (!x) := by
  unfold agree
  rw [List.getElem?_zipWith]
  rcases a[i]? with _ | x <;> rcases b[i]? with _ | y
  · simp
  · simp
  · simp
  · cases x <;> cases y <;> simp

theorem agree_all (a b : List Bool) (h : a.length = b.length) : (agree a b).all id = true ↔ a = b := by
  unfold agree
  induction a generalizing b with
  | nil => cases b <;> simp_all
  | cons x a ih =>
    cases b with
    | nil => simp at h
    | cons y b =>
      have := ih b (by simpa using h)
      simp only [List.zipWith_cons_cons, List.all_cons, Bool.and_eq_true, this, id, List.cons.injEq, beq_iff_eq]

section
variable {K : Type} [DecidableEq K] [LinearOrder K]

/-- **C138**: the positions listed are those of the points whose stored classification differs from that by their value, each once and in order. -/
theorem C138_bad_points (d : Data K) (isFin : K → Bool) (i : ℕ) :
    (i ∈ badAt (agree d.yFinite (d.yAll.map isFin)) ↔ ∃ y f, d.yAll[i]? = some y ∧ d.yFinite[i]? = some f ∧ f ≠ isFin y) ∧
    (badAt (agree d.yFinite (d.yAll.map isFin))).Pairwise (· < ·) := by
  constructor
  · rw [mem_badAt, agree_get]
    constructor
    · rintro ⟨x, h1, h2⟩
      rw [List.getElem?_map] at h2
      rcases hy : d.yAll[i]? with _ | y
      · rw [hy] at h2
        simp at h2
      · rw [hy] at h2
        simp only [Option.map_some, Option.some.injEq] at h2
        exact ⟨y, x, rfl, h1, by rw [h2]; cases x <;> simp⟩
    · rintro ⟨y, f, hy, hf, hn⟩
      refine ⟨f, hf, ?_⟩
      rw [List.getElem?_map, hy, Option.map_some]
      revert hn
      generalize isFin y = g
      cases f <;> cases g <;> simp
  · unfold badAt
    rw [List.pairwise_map]
    refine List.Pairwise.filter _ ?_
    have h : ((agree d.yFinite (d.yAll.map isFin)).zipIdx.map Prod.snd).Pairwise (· < ·) := by
      rw [List.zipIdx_map_snd]
      exact List.pairwise_lt_range'
    exact List.pairwise_map.1 h

/-- **C138**: the subtests about the classifier appear exactly if the verdict is negative, and then at least one of them is negative: the verdict never
remains unexplained. -/
theorem C138_explained (d : Data K) (isFin : K → Bool) (pred : List K → Bool) (m : K) :
    (Line.verdict "self consistent" true ∈ classifierLines d isFin pred m → classifierLines d isFin pred m = [.verdict "self consistent" true]) ∧
    (Line.verdict "self consistent" false ∈ classifierLines d isFin pred m → ∃ q, q ≠ "self consistent" ∧
      Line.verdict q false ∈ classifierLines d isFin pred m) := by
  unfold classifierLines subtest
  dsimp only
  generalize agree d.yFinite (d.yAll.map isFin) = c1
  generalize agree d.yFinite (d.XAll.map pred) = c2
  cases h1 : c1.all id <;> cases h2 : c2.all id <;> by_cases h3 : d.threshold < m <;> simp [h1, h2, h3]
  all_goals first | (refine ⟨"is_finite", by decide, ?_⟩; simp; done) | (refine ⟨"predict", by decide, ?_⟩; simp; done) | (refine ⟨"threshold", by decide, ?_⟩; simp; done)

/-- **C138**: the verdict is positive iff the stored classification is that by value and the predicted one, and the smallest finite value is above
the threshold; each subtest reports its own comparison; a list of values printed belongs to a list of positions printed. -/
theorem C138_lines (d : Data K) (isFin : K → Bool) (pred : List K → Bool) (m : K) (h1 : d.yFinite.length = d.yAll.length)
    (h2 : d.yFinite.length = d.XAll.length) (b : Bool) :
    (Line.verdict "self consistent" b ∈ classifierLines d isFin pred m ↔
      (b = true ↔ d.yFinite = d.yAll.map isFin ∧ d.yFinite = d.XAll.map pred ∧ d.threshold < m)) ∧
    (Line.verdict "is_finite" b ∈ classifierLines d isFin pred m → (b = true ↔ d.yFinite = d.yAll.map isFin)) ∧
    (Line.verdict "predict" b ∈ classifierLines d isFin pred m → (b = true ↔ d.yFinite = d.XAll.map pred)) ∧
    (Line.verdict "threshold" b ∈ classifierLines d isFin pred m → (b = true ↔ d.threshold < m)) ∧
    (∀ vs, Line.values vs ∈ classifierLines d isFin pred m → ∃ ps, Line.bad ps ∈ classifierLines d isFin pred m ∧ vs = takeAt d.yAll ps) ∧
    (∀ ps, Line.bad ps ∈ classifierLines d isFin pred m → ps = badAt (agree d.yFinite (d.yAll.map isFin)) ∨
      ps = badAt (agree d.yFinite (d.XAll.map pred))) := by
  have e1 := agree_all d.yFinite (d.yAll.map isFin) (by rw [List.length_map, h1])
  have e2 := agree_all d.yFinite (d.XAll.map pred) (by rw [List.length_map, h2])
  rw [← e1, ← e2]
  unfold classifierLines subtest
  dsimp only
  generalize agree d.yFinite (d.yAll.map isFin) = c1
  generalize agree d.yFinite (d.XAll.map pred) = c2
  cases h1 : c1.all id <;> cases h2 : c2.all id <;> by_cases h3 : d.threshold < m <;> cases b <;> simp [h1, h2, h3]
  all_goals
    rintro vs (rfl | rfl)
    · exact ⟨_, Or.inl rfl, rfl⟩
    · exact ⟨_, Or.inr rfl, rfl⟩

/-- **C138**: the verdict printed is that of `selfConsistent`. -/
theorem C138_lines_verdict (d : Data K) (isFin : K → Bool) (pred : List K → Bool) (m : K) (h1 : d.yFinite.length = d.yAll.length)
    (h2 : d.yFinite.length = d.XAll.length) (hf : d.isFinite = d.yAll.map isFin) (hp : d.predicted = d.XAll.map pred)
    (hm : (select d.yAll (inGP d)).min? = some m) (b : Bool) :
    selfConsistent d = .ok b ↔ Line.verdict "self consistent" b ∈ classifierLines d isFin pred m := by
  rw [(C138_lines d isFin pred m h1 h2 b).1]
  unfold selfConsistent
  rw [hm, hf, hp]
  simp only [Except.ok.injEq]
  by_cases q1 : d.yFinite = d.yAll.map isFin <;> by_cases q2 : d.yFinite = d.XAll.map pred <;> by_cases q3 : d.threshold < m <;> cases b <;>
    simp [q1, q2, q3] <;> (try rw [← q1]) <;> simp_all

/-- **C138**: the classification printed for the points listed in the first subtest is the opposite of the stored one at each of them. -/
theorem C138_flags (d : Data K) (isFin : K → Bool) :
    (takeAt d.yAll (badAt (agree d.yFinite (d.yAll.map isFin)))).map isFin =
      (takeAt d.yFinite (badAt (agree d.yFinite (d.yAll.map isFin)))).map (!·) := by
  have key : ∀ ps : List ℕ, (∀ i ∈ ps, i ∈ badAt (agree d.yFinite (d.yAll.map isFin))) →
      (takeAt d.yAll ps).map isFin = (takeAt d.yFinite ps).map (!·) := by
    intro ps
    induction ps with
    | nil => intro _; rfl
    | cons i ps ih =>
      intro h
      obtain ⟨y, f, hy, hf, hn⟩ := (C138_bad_points d isFin i).1.1 (h i (by simp))
      have e := ih fun j hj => h j (by simp [hj])
      unfold takeAt at e ⊢
      rw [List.filterMap_cons_some hy, List.filterMap_cons_some hf, List.map_cons, List.map_cons, e]
      congr 1
      revert hn
      generalize isFin y = g
      cases f <;> cases g <;> simp
  exact key _ fun i hi => hi

/-- **C138**: for the training sets the second and third lines appear exactly if the verdict is negative. -/
theorem C138_set_lines (d : Data K) : (trainConsistent d = true ∧ setLines d = [.verdict "sets consistent" true]) ∨
    (trainConsistent d = false ∧ ∃ a b, (a && b) = false ∧ setLines d = [.verdict "sets consistent" false,
      .verdict "are finite points missing from GP?" a, .verdict "are there more points in GP and finite?" b]) := by
  unfold trainConsistent setLines
  dsimp only
  cases h1 : (select d.XAll d.isFinite).all (npIn d.X) <;> by_cases h2 : (inGP d).count true = d.y.length <;> simp [h2]

/-- **C138**, false of the code: the answers printed are those to the opposite questions. Whenever the questions are asked, "are finite points missing
from GP?" is answered `True` iff none is missing, for points without common coordinates. -/
theorem C138_question_counterexample (d : Data K) (hs : NoShared d.XAll) (hX : ∀ r ∈ d.X, r ∈ d.XAll) (hne : ∀ p ∈ d.XAll, p ≠ [])
    (ht : trainConsistent d = false) :
    (Line.verdict "are finite points missing from GP?" true ∈ setLines d ↔ ∀ p ∈ select d.XAll d.isFinite, p ∈ d.X) ∧
    (Line.verdict "are finite points missing from GP?" false ∈ setLines d ↔ ∃ p ∈ select d.XAll d.isFinite, p ∉ d.X) ∧
    (Line.verdict "are there more points in GP and finite?" true ∈ setLines d ↔ (d.XAll.filter (· ∈ d.X)).length = d.y.length) := by
  have e : (select d.XAll d.isFinite).all (npIn d.X) = true ↔ ∀ p ∈ select d.XAll d.isFinite, p ∈ d.X := by
    rw [List.all_eq_true]
    exact forall₂_congr fun p hp => C138_member_partial d.X d.XAll hs hX p (mem_select hp) (hne p (mem_select hp))
  have ec : (inGP d).count true = (d.XAll.filter (· ∈ d.X)).length := by
    unfold inGP
    rw [List.count_eq_countP, List.countP_map, List.countP_eq_length_filter]
    congr 1
    refine List.filter_congr fun p hp => ?_
    have := C138_member_partial d.X d.XAll hs hX p hp (hne p hp)
    simp only [Function.comp]
    by_cases h : p ∈ d.X
    · simp [h, this.2 h]
    · have h2 : npIn d.X p = false := by
        by_contra h3
        exact h (this.1 (by simpa using h3))
      simp [h, h2]
  have e2 : (∃ p ∈ select d.XAll d.isFinite, p ∉ d.X) ↔ ¬ ∀ p ∈ select d.XAll d.isFinite, p ∈ d.X := by
    push Not
    rfl
  rw [← ec, e2, ← e]
  unfold trainConsistent at ht
  unfold setLines
  dsimp only
  rw [ht]
  cases h1 : (select d.XAll d.isFinite).all (npIn d.X) <;> by_cases h2 : (inGP d).count true = d.y.length <;> simp [h1, h2] at ht ⊢

end

/-! ## Examples -/

/-- The second point is stored as finite though its value is not, the third is predicted wrongly. -/
def exBad : Data ℚ := ⟨[[0, 1], [2, 3], [4, 5]], [1, -90, -100], [[0, 1]], [1], [true, true, false], [true, false, false],
  [true, true, true], -50⟩

example : classifierLines exBad (fun y => decide (-50 < y)) (fun _ => true) 1 =
    [.verdict "self consistent" false, .verdict "is_finite" false, .bad [1], .values [-90], .flags [false],
      .verdict "predict" false, .bad [2], .values [-100], .flags [true], .verdict "threshold" true] := by decide +kernel

example : classifierLines { exBad with yFinite := [true, false, false] } (fun y => decide (-50 < y)) (fun p => decide (p = [0, 1])) 1 =
    [.verdict "self consistent" true] := by decide +kernel

example : ∃ q, q ≠ "self consistent" ∧ Line.verdict q false ∈ classifierLines exBad (fun y => decide (-50 < y)) (fun _ => true) 1 :=
  (C138_explained exBad _ _ 1).2 (by decide +kernel)

example : Line.verdict "self consistent" false ∈ classifierLines exBad (fun y => decide (-50 < y)) (fun _ => true) 1 :=
  (C138_lines exBad _ _ 1 rfl rfl false).1.2 (by decide +kernel)

example : selfConsistent exBad = .ok false :=
  (C138_lines_verdict exBad (fun y => decide (-50 < y)) (fun _ => true) 1 rfl rfl (by decide +kernel) (by decide +kernel) (by decide +kernel)
    false).2 (by decide +kernel)

example : (1 : ℕ) ∈ badAt (agree exBad.yFinite (exBad.yAll.map fun y => decide (-50 < y))) :=
  (C138_bad_points exBad _ 1).1.2 ⟨-90, true, rfl, rfl, by decide +kernel⟩

example : (takeAt exBad.yAll [1]).map (fun y => decide (-50 < y)) = [false] := by
  have h := C138_flags exBad (fun y => decide (-50 < y))
  have e : badAt (agree exBad.yFinite (exBad.yAll.map fun y => decide (-50 < y))) = [1] := by decide +kernel
  rw [e] at h
  rw [h]
  rfl

/-- A finite point is missing from the training set: the question is answered "False". -/
def exMissing : Data ℚ := ⟨[[0, 1], [2, 3], [4, 5]], [1, 2, -100], [[0, 1]], [1], [true, true, false], [true, true, false],
  [true, true, false], -50⟩

example : setLines exMissing = [.verdict "sets consistent" false, .verdict "are finite points missing from GP?" false,
    .verdict "are there more points in GP and finite?" true] := by decide +kernel

example : Line.verdict "are finite points missing from GP?" false ∈ setLines exMissing ↔
    ∃ p ∈ select exMissing.XAll exMissing.isFinite, p ∉ exMissing.X :=
  (C138_question_counterexample exMissing (by
    intro r hr p hp k a h1 h2
    simp only [exMissing, List.mem_cons, List.not_mem_nil, or_false] at hr hp
    rcases k with _ | _ | k <;> rcases hr with rfl | rfl | rfl <;> rcases hp with rfl | rfl | rfl <;> simp at h1 h2 ⊢ <;> linarith)
    (by decide +kernel) (by decide +kernel) (by decide +kernel)).2.1

example : ∃ a b, (a && b) = false ∧ setLines exMissing = [.verdict "sets consistent" false,
    .verdict "are finite points missing from GP?" a, .verdict "are there more points in GP and finite?" b] := by
  rcases C138_set_lines exMissing with h | h
  · exact absurd h.1 (by decide +kernel)
  · exact h.2

end GPry.Diag
