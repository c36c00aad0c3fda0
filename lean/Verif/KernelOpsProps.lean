import Verif.KernelOps
import Verif.KernelsProps

set_option linter.all false

/-!
# C113: kernels built with `+`, `*` and `**`
-/

namespace GPry.KernelOps

open GPry.Kernels

variable {d : ℕ}

/-! ## Meaning of the expressions, independent of the objects -/

/-- The function the expression stands for. -/
noncomputable def PExpr.den (general : ℕ → ℝ → ℝ) : PExpr d → (Fin d → ℝ) → (Fin d → ℝ) → ℝ
  | num c, _, _ => c
  | atom a, x, y => a.expr.eval general x y
  | add a b, x, y => a.den general x y + b.den general x y
  | mul a b, x, y => a.den general x y * b.den general x y
  | pow a p, x, y => a.den general x y ^ p

/-- The kernels written in it. -/
def PExpr.atoms : PExpr d → List (Atom d)
  | num _ => []
  | atom a => [a]
  | add a b | mul a b => a.atoms ++ b.atoms
  | pow a _ => a.atoms

/-- There is a power of a kernel in it. -/
def PExpr.HasPow : PExpr d → Prop
  | num _ | atom _ => False
  | add a b | mul a b => a.HasPow ∨ b.HasPow
  | pow a _ => a.atoms ≠ []

/-- Name of the outermost class (of an expression with some kernel). -/
def PExpr.top : PExpr d → Cls
  | num _ => .ConstantKernel
  | atom a => a.cls
  | add _ _ => .Sum
  | mul _ _ => .Product
  | pow _ _ => .Exponentiation

/-- The order of the operands of `+` and `*`: an operand with a power is never to the right of a kernel without one, and if
it is on the left of one the two are not of the same kind. -/
def PExpr.Fine : PExpr d → Prop
  | num _ | atom _ => True
  | add a b | mul a b => a.Fine ∧ b.Fine ∧ (a.atoms ≠ [] → b.atoms ≠ [] → (b.HasPow → a.HasPow) ∧ (a.HasPow → ¬ b.HasPow → a.top ≠ b.top))
  | pow a _ => a.Fine

/-! ## Proofs -/

theorem build_num (e : PExpr d) (h : e.atoms = []) (general : ℕ → ℝ → ℝ) (x y : Fin d → ℝ) : e.build = .num (e.den general x y) := by
  induction e with
  | num c => rfl
  | atom a => cases h
  | add a b iha ihb =>
    rw [PExpr.atoms, List.append_eq_nil_iff] at h
    rw [PExpr.build, iha h.1, ihb h.2]; rfl
  | mul a b iha ihb =>
    rw [PExpr.atoms, List.append_eq_nil_iff] at h
    rw [PExpr.build, iha h.1, ihb h.2]; rfl
  | pow a p iha => rw [PExpr.build, iha h]; rfl

theorem build_ker (e : PExpr d) (h : e.atoms ≠ []) : ∃ k, e.build = .ker k ∧ k.cls = e.top := by
  have num : ∀ a : PExpr d, a.atoms = [] → ∃ c, a.build = .num c := fun a ha => ⟨_, build_num a ha (fun _ _ => 0) 0 0⟩
  have bin : ∀ (f : ℝ → ℝ → ℝ) (mk : Lib → KObj d → KObj d → KObj d) (c : Cls) (hc : ∀ l a b, (mk l a b).cls = c) (a b : PExpr d),
      a.atoms ++ b.atoms ≠ [] → (a.atoms ≠ [] → ∃ k, a.build = .ker k) → (b.atoms ≠ [] → ∃ k, b.build = .ker k) →
      ∃ k, pyOp f mk a.build b.build = .ker k ∧ k.cls = c := by
    intro f mk c hc a b hab ha hb
    by_cases h1 : a.atoms = []
    · obtain ⟨k, hk⟩ := hb (by rintro h2; exact hab (by rw [h1, h2]; rfl))
      obtain ⟨n, hn⟩ := num a h1
      rw [hk, hn]
      exact ⟨_, rfl, hc _ _ _⟩
    · obtain ⟨k, hk⟩ := ha h1
      by_cases h2 : b.atoms = []
      · obtain ⟨n, hn⟩ := num b h2
        rw [hk, hn]
        exact ⟨_, rfl, hc _ _ _⟩
      · obtain ⟨k', hk'⟩ := hb h2
        rw [hk, hk']
        refine ⟨_, rfl, ?_⟩
        split
        · exact hc _ _ _
        · exact hc _ _ _
  induction e with
  | num c => exact absurd rfl h
  | atom a => exact ⟨_, rfl, rfl⟩
  | add a b iha ihb =>
    exact bin (· + ·) .sum .Sum (fun _ _ _ => rfl) a b h (fun ha => (iha ha).imp fun _ => And.left) (fun hb => (ihb hb).imp fun _ => And.left)
  | mul a b iha ihb =>
    exact bin (· * ·) .prod .Product (fun _ _ _ => rfl) a b h (fun ha => (iha ha).imp fun _ => And.left) (fun hb => (ihb hb).imp fun _ => And.left)
  | pow a p iha =>
    obtain ⟨k, hk, _⟩ := iha h
    rw [PExpr.build, hk]
    exact ⟨_, rfl, rfl⟩

/-- The class of scikit-learn is used if there is a power in it. -/
theorem build_lib (e : PExpr d) : e.Fine → ∀ k, e.build = .ker k → (k.lib = .sk ↔ e.HasPow) := by
  have num : ∀ a : PExpr d, a.atoms = [] → ∃ c, a.build = .num c := fun a ha => ⟨_, build_num a ha (fun _ _ => 0) 0 0⟩
  have nopow : ∀ a : PExpr d, a.HasPow → a.atoms ≠ [] := by
    intro a
    induction a with
    | num c => exact fun h => h.elim
    | atom a => exact fun h => h.elim
    | add a b iha ihb =>
      rintro (h | h) h'
      · exact iha h (List.append_eq_nil_iff.1 h').1
      · exact ihb h (List.append_eq_nil_iff.1 h').2
    | mul a b iha ihb =>
      rintro (h | h) h'
      · exact iha h (List.append_eq_nil_iff.1 h').1
      · exact ihb h (List.append_eq_nil_iff.1 h').2
    | pow a p iha => exact fun h => h
  have bin : ∀ (f : ℝ → ℝ → ℝ) (mk : Lib → KObj d → KObj d → KObj d) (hc : ∀ l a b, (mk l a b).lib = l) (a b : PExpr d),
      (∀ k, a.build = .ker k → (k.lib = .sk ↔ a.HasPow)) → (∀ k, b.build = .ker k → (k.lib = .sk ↔ b.HasPow)) →
      (a.atoms ≠ [] → b.atoms ≠ [] → (b.HasPow → a.HasPow) ∧ (a.HasPow → ¬ b.HasPow → a.top ≠ b.top)) →
      ∀ k, pyOp f mk a.build b.build = .ker k → (k.lib = .sk ↔ a.HasPow ∨ b.HasPow) := by
    intro f mk hc a b ha hb hf k hk
    by_cases h1 : a.atoms = []
    · obtain ⟨n, hn⟩ := num a h1
      have h1' : ¬ a.HasPow := fun h => nopow a h h1
      rw [hn] at hk
      cases hbb : b.build with
      | num c => rw [hbb] at hk; cases hk
      | ker b' =>
        rw [hbb] at hk
        cases hk
        rw [opRight, hc, hb b' hbb]
        simp [h1']
    · obtain ⟨a', ha', hac⟩ := build_ker a h1
      by_cases h2 : b.atoms = []
      · obtain ⟨n, hn⟩ := num b h2
        have h2' : ¬ b.HasPow := fun h => nopow b h h2
        rw [ha', hn] at hk
        cases hk
        rw [opLeft, hc, ha a' ha']
        simp [h2']
      · obtain ⟨b', hb', hbc⟩ := build_ker b h2
        obtain ⟨hf1, hf2⟩ := hf h1 h2
        rw [ha', hb'] at hk
        cases hk
        have hr : reflected a' b' = false := by
          rw [Bool.eq_false_iff]
          intro hr
          rw [reflected, Bool.and_eq_true, Bool.and_eq_true, decide_eq_true_iff, decide_eq_true_iff, decide_eq_true_iff] at hr
          refine hf2 ((ha a' ha').1 hr.1.1) (fun h => ?_) (hac ▸ hbc ▸ hr.2)
          rw [← hb b' hb', hr.1.2] at h
          cases h
        rw [if_neg (by rw [hr]; exact Bool.false_ne_true), opLeft, hc, ha a' ha']
        exact ⟨Or.inl, fun h => h.elim id hf1⟩
  induction e with
  | num c => intro _ k hk; cases hk
  | atom a => intro _ k hk; cases hk; simp [KObj.lib, PExpr.HasPow]
  | add a b iha ihb => exact fun h => bin _ _ (fun _ _ _ => rfl) a b (iha h.1) (ihb h.2.1) h.2.2
  | mul a b iha ihb => exact fun h => bin _ _ (fun _ _ _ => rfl) a b (iha h.1) (ihb h.2.1) h.2.2
  | pow a p iha =>
    intro h k hk
    by_cases h1 : a.atoms = []
    · obtain ⟨n, hn⟩ := num a h1
      rw [PExpr.build, hn] at hk
      cases hk
    · obtain ⟨a', ha', _⟩ := build_ker a h1
      rw [PExpr.build, ha'] at hk
      cases hk
      exact ⟨fun _ => h1, fun _ => rfl⟩

theorem coerce_value (general : ℕ → ℝ → ℝ) (l : Lib) (k : KObj d) (x y : Fin d → ℝ) :
    (coerce l (.ker k)).value general x y = k.value general x y ∨ (coerce l (.ker k)).value general x y = .error .notNumbers := by
  rw [coerce]
  split
  · exact Or.inl rfl
  · exact Or.inr rfl

/-- What `+` and `*` do to the values. -/
theorem value_op (general : ℕ → ℝ → ℝ) (f : ℝ → ℝ → ℝ) (mk : Lib → KObj d → KObj d → KObj d)
    (hv : ∀ l a b x y, (mk l a b).value general x y =
      match a.value general x y, b.value general x y with
      | .ok u, .ok v => .ok (f u v)
      | .error e, _ => .error e
      | _, .error e => .error e) (a b : PExpr d)
    (ha : ∀ k, a.build = .ker k → (a.Fine → ∀ x y, k.value general x y = .ok (a.den general x y)) ∧ (¬ a.Fine → ∀ x y, k.value general x y = .error .notNumbers))
    (hb : ∀ k, b.build = .ker k → (b.Fine → ∀ x y, k.value general x y = .ok (b.den general x y)) ∧ (¬ b.Fine → ∀ x y, k.value general x y = .error .notNumbers))
    (k : KObj d) (hk : pyOp f mk a.build b.build = .ker k) :
    (a.Fine ∧ b.Fine ∧ (a.atoms ≠ [] → b.atoms ≠ [] → (b.HasPow → a.HasPow) ∧ (a.HasPow → ¬ b.HasPow → a.top ≠ b.top)) →
      ∀ x y, k.value general x y = .ok (f (a.den general x y) (b.den general x y))) ∧
    (¬ (a.Fine ∧ b.Fine ∧ (a.atoms ≠ [] → b.atoms ≠ [] → (b.HasPow → a.HasPow) ∧ (a.HasPow → ¬ b.HasPow → a.top ≠ b.top))) →
      ∀ x y, k.value general x y = .error .notNumbers) := by
  have fineNum : ∀ a : PExpr d, a.atoms = [] → a.Fine := by
    intro a
    induction a with
    | num c => exact fun _ => trivial
    | atom a => exact fun h => by cases h
    | add a b iha ihb =>
      intro h
      rw [PExpr.atoms, List.append_eq_nil_iff] at h
      exact ⟨iha h.1, ihb h.2, fun h' => absurd h.1 h'⟩
    | mul a b iha ihb =>
      intro h
      rw [PExpr.atoms, List.append_eq_nil_iff] at h
      exact ⟨iha h.1, ihb h.2, fun h' => absurd h.1 h'⟩
    | pow a p iha => exact iha
  by_cases h1 : a.atoms = []
  · by_cases h2 : b.atoms = []
    · rw [build_num a h1 general 0 0, build_num b h2 general 0 0] at hk; cases hk
    · obtain ⟨b', hb', _⟩ := build_ker b h2
      have hval : ∀ x y, k.value general x y = match b'.value general x y with
          | .ok v => .ok (f (a.den general x y) v)
          | .error e => .error e := by
        intro x y
        rw [build_num a h1 general x y, hb'] at hk
        cases hk
        rw [opRight, hv]
        have : (coerce b'.lib (Operand.num (a.den general x y)) : KObj d).value general x y = .ok (a.den general x y) := rfl
        rw [this]
        cases b'.value general x y <;> rfl
      refine ⟨fun h x y => ?_, fun h x y => ?_⟩
      · rw [hval, (hb b' hb').1 h.2.1]
      · have : ¬ b.Fine := fun hbf => h ⟨fineNum a h1, hbf, fun h' => absurd h1 h'⟩
        rw [hval, (hb b' hb').2 this]
  · obtain ⟨a', ha', hac⟩ := build_ker a h1
    by_cases h2 : b.atoms = []
    · have hval : ∀ x y, k.value general x y = match a'.value general x y with
          | .ok u => .ok (f u (b.den general x y))
          | .error e => .error e := by
        intro x y
        rw [build_num b h2 general x y, ha'] at hk
        cases hk
        rw [opLeft, hv]
        have : (coerce a'.lib (Operand.num (b.den general x y)) : KObj d).value general x y = .ok (b.den general x y) := rfl
        rw [this]
        cases a'.value general x y <;> rfl
      refine ⟨fun h x y => ?_, fun h x y => ?_⟩
      · rw [hval, (ha a' ha').1 h.1]
      · have : ¬ a.Fine := fun haf => h ⟨haf, fineNum b h2, fun _ h' => absurd h2 h'⟩
        rw [hval, (ha a' ha').2 this]
    · obtain ⟨b', hb', hbc⟩ := build_ker b h2
      rw [ha', hb'] at hk
      cases hk
      by_cases haf : a.Fine
      · by_cases hbf : b.Fine
        · have la := build_lib a haf a' ha'
          have lb := build_lib b hbf b' hb'
          cases hal : a'.lib with
          | gpry =>
            have hap : ¬ a.HasPow := fun h => by rw [← la, hal] at h; cases h
            have hr : reflected a' b' = false := by rw [reflected, hal]; rfl
            rw [hr]
            cases hbl : b'.lib with
            | gpry =>
              have hbp : ¬ b.HasPow := fun h => by rw [← lb, hbl] at h; cases h
              have hco : coerce a'.lib (.ker b') = b' := by rw [coerce, isKernel, hal, hbl]; rfl
              refine ⟨fun h x y => ?_, fun h => (h ⟨haf, hbf, fun _ _ => ⟨fun h => absurd h hbp, fun h => absurd h hap⟩⟩).elim⟩
              rw [if_neg Bool.false_ne_true, opLeft, hv, hco, (ha a' ha').1 haf, (hb b' hb').1 hbf]
            | sk =>
              have hbp := lb.1 hbl
              have hco : coerce a'.lib (.ker b') = .wrap .gpry b' := by rw [coerce, isKernel, hal, hbl]; rfl
              refine ⟨fun h => absurd ((h.2.2 h1 h2).1 hbp) hap, fun h x y => ?_⟩
              rw [if_neg Bool.false_ne_true, opLeft, hv, hco, (ha a' ha').1 haf]
              rfl
          | sk =>
            have hap := la.1 hal
            cases hbl : b'.lib with
            | sk =>
              have hbp := lb.1 hbl
              have hr : reflected a' b' = false := by rw [reflected, hal, hbl]; rfl
              have hco : coerce a'.lib (.ker b') = b' := by rw [coerce, isKernel, hal]; rfl
              rw [hr]
              refine ⟨fun h x y => ?_, fun h => (h ⟨haf, hbf, fun _ _ => ⟨fun _ => hap, fun _ h' => absurd hbp h'⟩⟩).elim⟩
              rw [if_neg Bool.false_ne_true, opLeft, hv, hco, (ha a' ha').1 haf, (hb b' hb').1 hbf]
            | gpry =>
              have hbp : ¬ b.HasPow := fun h => by rw [← lb, hbl] at h; cases h
              by_cases htop : a.top = b.top
              · have hr : reflected a' b' = true := by
                  rw [reflected, hal, hbl, hac, hbc, htop]; simp
                have hco : coerce b'.lib (.ker a') = .wrap .gpry a' := by rw [coerce, isKernel, hal, hbl]; rfl
                rw [hr]
                refine ⟨fun h => absurd htop ((h.2.2 h1 h2).2 hap hbp), fun h x y => ?_⟩
                rw [if_pos rfl, opRight, hv, hco]
                have : (KObj.wrap Lib.gpry a').value general x y = .error .notNumbers := rfl
                rw [this]
              · have hr : reflected a' b' = false := by
                  rw [reflected, hac, hbc, decide_eq_false htop, Bool.and_false]
                have hco : coerce a'.lib (.ker b') = b' := by rw [coerce, isKernel, hal]; rfl
                rw [hr]
                refine ⟨fun h x y => ?_, fun h => (h ⟨haf, hbf, fun _ _ => ⟨fun _ => hap, fun _ _ => htop⟩⟩).elim⟩
                rw [if_neg Bool.false_ne_true, opLeft, hv, hco, (ha a' ha').1 haf, (hb b' hb').1 hbf]
        · -- the right operand has no values
          have e2 := (hb b' hb').2 hbf
          refine ⟨fun h => absurd h.2.1 hbf, fun _ x y => ?_⟩
          split
          · rw [opRight, hv, e2]
            rcases coerce_value general b'.lib a' x y with h | h
            · rw [h, (ha a' ha').1 haf]
            · rw [h]
          · rw [opLeft, hv, (ha a' ha').1 haf]
            rcases coerce_value general a'.lib b' x y with h | h
            · rw [h, e2]
            · rw [h]
      · have e1 := (ha a' ha').2 haf
        refine ⟨fun h => absurd h.1 haf, fun _ x y => ?_⟩
        split
        · rw [opRight, hv]
          rcases coerce_value general b'.lib a' x y with h | h
          · rw [h, e1]
          · rw [h]
        · rw [opLeft, hv, e1]

theorem value_build (general : ℕ → ℝ → ℝ) (e : PExpr d) : ∀ k, e.build = .ker k →
    (e.Fine → ∀ x y, k.value general x y = .ok (e.den general x y)) ∧ (¬ e.Fine → ∀ x y, k.value general x y = .error .notNumbers) := by
  induction e with
  | num c => intro k hk; cases hk
  | atom a => intro k hk; cases hk; exact ⟨fun _ _ _ => rfl, fun h => (h trivial).elim⟩
  | add a b iha ihb => exact value_op general _ _ (fun l a b x y => by rw [KObj.value]; cases a.value general x y <;> cases b.value general x y <;> rfl) a b iha ihb
  | mul a b iha ihb => exact value_op general _ _ (fun l a b x y => by rw [KObj.value]; cases a.value general x y <;> cases b.value general x y <;> rfl) a b iha ihb
  | pow a p iha =>
    intro k hk
    by_cases h1 : a.atoms = []
    · rw [PExpr.build, build_num a h1 general 0 0] at hk; cases hk
    · obtain ⟨a', ha', _⟩ := build_ker a h1
      rw [PExpr.build, ha'] at hk
      cases hk
      refine ⟨fun h x y => ?_, fun h x y => ?_⟩
      · rw [KObj.value, (iha a' ha').1 h]; rfl
      · rw [KObj.value, (iha a' ha').2 h]

/-- **C113** (values). An expression with `+`, `*`, `**`, numbers and kernels of GPry builds a kernel whose values are those of
the function the expression stands for, if the operands with a power of a kernel are in the right order (`Fine`); and
otherwise it builds (without an exception) an object whose values are not numbers. -/
theorem C113_values (general : ℕ → ℝ → ℝ) (e : PExpr d) (h : e.atoms ≠ []) :
    ∃ k, e.build = .ker k ∧ (e.Fine ∧ (∀ x y, k.value general x y = .ok (e.den general x y)) ∨
      ¬ e.Fine ∧ ∀ x y, k.value general x y = .error .notNumbers) := by
  obtain ⟨k, hk, _⟩ := build_ker e h
  refine ⟨k, hk, ?_⟩
  by_cases hf : e.Fine
  · exact Or.inl ⟨hf, (value_build general e k hk).1 hf⟩
  · exact Or.inr ⟨hf, (value_build general e k hk).2 hf⟩

/-- Without powers the order does not matter. -/
theorem fine_of_noPow (e : PExpr d) (h : ¬ e.HasPow) : e.Fine := by
  induction e with
  | num c => trivial
  | atom a => trivial
  | add a b iha ihb =>
    rw [PExpr.HasPow, not_or] at h
    exact ⟨iha h.1, ihb h.2, fun _ _ => ⟨fun h' => absurd h' h.2, fun h' => absurd h' h.1⟩⟩
  | mul a b iha ihb =>
    rw [PExpr.HasPow, not_or] at h
    exact ⟨iha h.1, ihb h.2, fun _ _ => ⟨fun h' => absurd h' h.2, fun h' => absurd h' h.1⟩⟩
  | pow a p iha =>
    have fineNum : ∀ a : PExpr d, a.atoms = [] → a.Fine := by
      intro a
      induction a with
      | num c => exact fun _ => trivial
      | atom a => exact fun h => by cases h
      | add a b iha ihb =>
        intro h
        rw [PExpr.atoms, List.append_eq_nil_iff] at h
        exact ⟨iha h.1, ihb h.2, fun h' => absurd h.1 h'⟩
      | mul a b iha ihb =>
        intro h
        rw [PExpr.atoms, List.append_eq_nil_iff] at h
        exact ⟨iha h.1, ihb h.2, fun h' => absurd h.1 h'⟩
      | pow a p iha => exact iha
    exact fineNum a (not_not.1 h)

/-- What has to be assumed of the kernels written in the expression for their gradients (as in C53). -/
def Atom.Regular : Atom d → (Fin d → ℝ) → (Fin d → ℝ) → Prop
  | matern nu2 ls, x, y => nu2 = 1 → sqDist ls x y ≠ 0
  | rq _ alpha, _, _ => 0 < alpha
  | _, _, _ => True

theorem Atom.regular_expr (general : ℕ → ℝ → ℝ) (a : Atom d) (x y : Fin d → ℝ) (h : a.Regular x y) : a.expr.Regular general x y := by
  cases a <;> exact h

/-- The expression of `Kernels.lean` that corresponds to an operand. -/
def Good (general : ℕ → ℝ → ℝ) (e : PExpr d) (k : KObj d) : Prop :=
  k.lib = .gpry ∧ k.hasGrad = true ∧ ∃ e', k.expr? = some e' ∧ (∀ x y, e'.eval general x y = e.den general x y) ∧
    ∀ x y, (∀ a ∈ e.atoms, a.Regular x y) → e'.Regular general x y

theorem good_op (general : ℕ → ℝ → ℝ) (f : ℝ → ℝ → ℝ) (mk : Lib → KObj d → KObj d → KObj d) (mk' : KExpr d → KExpr d → KExpr d) (c : PExpr d)
    (a b : PExpr d) (hc : c.build = pyOp f mk a.build b.build) (hat : c.atoms = a.atoms ++ b.atoms)
    (hden : ∀ x y, c.den general x y = f (a.den general x y) (b.den general x y))
    (h1 : ∀ l a b, (mk l a b).lib = l) (h2 : ∀ a b, (mk .gpry a b).hasGrad = (a.hasGrad && b.hasGrad))
    (h3 : ∀ l a b u v, a.expr? = some u → b.expr? = some v → (mk l a b).expr? = some (mk' u v))
    (h4 : ∀ u v x y, (mk' u v).eval general x y = f (u.eval general x y) (v.eval general x y))
    (h5 : ∀ u v x y, (mk' u v).Regular general x y ↔ u.Regular general x y ∧ v.Regular general x y)
    (iha : ∀ k, a.build = .ker k → Good general a k) (ihb : ∀ k, b.build = .ker k → Good general b k) (k : KObj d) (hk : c.build = .ker k) :
    Good general c k := by
  rw [hc] at hk
  by_cases e1 : a.atoms = []
  · by_cases e2 : b.atoms = []
    · rw [build_num a e1 general 0 0, build_num b e2 general 0 0] at hk; cases hk
    · obtain ⟨b', hb', _⟩ := build_ker b e2
      obtain ⟨l1, g1, u, hu, hu1, hu2⟩ := ihb b' hb'
      have hnum : ∀ x y, a.den general x y = a.den general 0 0 := by
        intro x y
        have := build_num a e1 general x y
        rw [build_num a e1 general 0 0] at this
        injection this with this
        exact this.symm
      rw [build_num a e1 general 0 0, hb'] at hk
      cases hk
      rw [opRight, l1]
      refine ⟨h1 _ _ _, ?_, mk' (.const (a.den general 0 0)) u, h3 _ _ _ _ _ rfl hu, fun x y => ?_, fun x y hr => ?_⟩
      · rw [h2, g1]; rfl
      · rw [h4, hu1, hden, hnum x y]; rfl
      · rw [h5]
        exact ⟨trivial, hu2 x y fun q hq => hr q (by rw [hat]; exact List.mem_append_right _ hq)⟩
  · obtain ⟨a', ha', _⟩ := build_ker a e1
    obtain ⟨l1, g1, u, hu, hu1, hu2⟩ := iha a' ha'
    by_cases e2 : b.atoms = []
    · have hnum : ∀ x y, b.den general x y = b.den general 0 0 := by
        intro x y
        have := build_num b e2 general x y
        rw [build_num b e2 general 0 0] at this
        injection this with this
        exact this.symm
      rw [build_num b e2 general 0 0, ha'] at hk
      cases hk
      rw [opLeft, l1]
      refine ⟨h1 _ _ _, ?_, mk' u (.const (b.den general 0 0)), h3 _ _ _ _ _ hu rfl, fun x y => ?_, fun x y hr => ?_⟩
      · rw [h2, g1]; rfl
      · rw [h4, hu1, hden, hnum x y]; rfl
      · rw [h5]
        exact ⟨hu2 x y fun q hq => hr q (by rw [hat]; exact List.mem_append_left _ hq), trivial⟩
    · obtain ⟨b', hb', _⟩ := build_ker b e2
      obtain ⟨l2, g2, v, hv, hv1, hv2⟩ := ihb b' hb'
      have hr : reflected a' b' = false := by rw [reflected, l1]; rfl
      have hco : coerce a'.lib (.ker b') = b' := by rw [coerce, isKernel, l1, l2]; rfl
      rw [ha', hb', pyOp, hr, if_neg Bool.false_ne_true, opLeft, hco, l1] at hk
      cases hk
      refine ⟨h1 _ _ _, ?_, mk' u v, h3 _ _ _ _ _ hu hv, fun x y => ?_, fun x y hr => ?_⟩
      · rw [h2, g1, g2]; rfl
      · rw [h4, hu1, hv1, hden]
      · rw [h5]
        exact ⟨hu2 x y fun q hq => hr q (by rw [hat]; exact List.mem_append_left _ hq),
          hv2 x y fun q hq => hr q (by rw [hat]; exact List.mem_append_right _ hq)⟩

theorem good_build (general : ℕ → ℝ → ℝ) (e : PExpr d) (h : ¬ e.HasPow) : ∀ k, e.build = .ker k → Good general e k := by
  induction e with
  | num c => intro k hk; cases hk
  | atom a =>
    intro k hk
    cases hk
    exact ⟨rfl, rfl, _, rfl, fun _ _ => rfl, fun x y hr => a.regular_expr general x y (hr a (List.mem_singleton_self a))⟩
  | add a b iha ihb =>
    rw [PExpr.HasPow, not_or] at h
    refine good_op general _ _ .sum _ a b rfl rfl (fun _ _ => rfl) (fun _ _ _ => rfl) (fun _ _ => rfl) ?_ (fun _ _ _ _ => rfl) (fun _ _ _ _ => Iff.rfl)
      (iha h.1) (ihb h.2)
    intro l a b u v hu hv
    rw [KObj.expr?, hu, hv]; rfl
  | mul a b iha ihb =>
    rw [PExpr.HasPow, not_or] at h
    refine good_op general _ _ .prod _ a b rfl rfl (fun _ _ => rfl) (fun _ _ _ => rfl) (fun _ _ => rfl) ?_ (fun _ _ _ _ => rfl) (fun _ _ _ _ => Iff.rfl)
      (iha h.1) (ihb h.2)
    intro l a b u v hu hv
    rw [KObj.expr?, hu, hv]; rfl
  | pow a p iha =>
    intro k hk
    rw [PExpr.build, build_num a (not_not.1 h) general 0 0] at hk; cases hk

/-- **C113** (gradient). If there is no power of a kernel in the expression, the kernel built has the method `gradient_x` (in
all of its parts), and what it returns is the gradient of the function the expression stands for. -/
theorem C113_gradient (general : ℕ → ℝ → ℝ) (e : PExpr d) (h : e.atoms ≠ []) (hp : ¬ e.HasPow) :
    ∃ k, e.build = .ker k ∧ (∀ x y, k.gradX general x y ≠ .error .attributeError) ∧
      ∀ x y g, (∀ a ∈ e.atoms, a.Regular x y) → k.gradX general x y = .ok g → ∀ j, HasPartial (fun x => e.den general x y) x j (g j) := by
  obtain ⟨k, hk, _⟩ := build_ker e h
  obtain ⟨hl, hg, e', he, hev, hr⟩ := good_build general e hp k hk
  refine ⟨k, hk, fun x y => ?_, fun x y g hreg hgx j => ?_⟩
  · rw [KObj.gradX, if_pos hg, he]
    dsimp only
    cases e'.gradX general 1 x y <;> simp
  · rw [KObj.gradX, if_pos hg, he] at hgx
    dsimp only at hgx
    cases hgr : e'.gradX general 1 x y with
    | error err => rw [hgr] at hgx; cases hgx
    | ok g' =>
      rw [hgr] at hgx
      rw [← Except.ok.inj hgx]
      have := C53_gradient_partial general e' 1 x y g' (hr x y hreg) hgr j
      have hfun : (fun x => e'.eval general x y) = fun x => e.den general x y := funext fun x => hev x y
      rw [hfun] at this
      exact this

/-- **C113**, counterexample for `**` (gradient): whatever the kernel, its power has no `gradient_x`; the same for every
expression with a power in it that has the right values. -/
theorem C113_pow_gradient_counterexample (general : ℕ → ℝ → ℝ) (e : PExpr d) (hf : e.Fine) (hp : e.HasPow) (k : KObj d) (hk : e.build = .ker k) :
    ∀ x y, k.gradX general x y = .error .attributeError := by
  intro x y
  have hl := (build_lib e hf k hk).2 hp
  have : k.hasGrad = false := by
    cases k <;> simp only [KObj.lib] at hl <;> rw [hl] <;> rfl
  rw [KObj.gradX, this]
  rfl

/-- **C113**, counterexample for `**` (values): a kernel without a power plus (or times) one with a power is not a kernel with
numbers as values, though the two operands are, and though exchanging them gives the right values (if the two are not sums, or not
products, both). -/
theorem C113_pow_order_counterexample (general : ℕ → ℝ → ℝ) (a b : PExpr d) (ha : a.atoms ≠ []) (hb : b.atoms ≠ []) (hap : ¬ a.HasPow)
    (hbp : b.HasPow) (hbf : b.Fine) (htop : b.top ≠ a.top) :
    (∃ k, (PExpr.add a b).build = .ker k ∧ ∀ x y, k.value general x y = .error .notNumbers) ∧
    (∃ k, (PExpr.add b a).build = .ker k ∧ ∀ x y, k.value general x y = .ok (a.den general x y + b.den general x y)) ∧
    (∃ k, (PExpr.mul a b).build = .ker k ∧ ∀ x y, k.value general x y = .error .notNumbers) ∧
    (∃ k, (PExpr.mul b a).build = .ker k ∧ ∀ x y, k.value general x y = .ok (a.den general x y * b.den general x y)) := by
  have haf := fine_of_noPow a hap
  have hne : ∀ l l' : List (Atom d), l ≠ [] → l ++ l' ≠ [] := fun l l' h h' => h (List.append_eq_nil_iff.1 h').1
  refine ⟨?_, ?_, ?_, ?_⟩
  · obtain ⟨k, hk, h⟩ := C113_values general (.add a b) (hne _ _ ha)
    refine ⟨k, hk, ?_⟩
    rcases h with h | h
    · exact absurd ((h.1.2.2 ha hb).1 hbp) hap
    · exact h.2
  · obtain ⟨k, hk, h⟩ := C113_values general (.add b a) (hne _ _ hb)
    refine ⟨k, hk, fun x y => ?_⟩
    rcases h with h | h
    · rw [h.2, PExpr.den, add_comm]
    · exact absurd ⟨hbf, haf, fun _ _ => ⟨fun h => absurd h hap, fun _ _ => htop⟩⟩ h.1
  · obtain ⟨k, hk, h⟩ := C113_values general (.mul a b) (hne _ _ ha)
    refine ⟨k, hk, ?_⟩
    rcases h with h | h
    · exact absurd ((h.1.2.2 ha hb).1 hbp) hap
    · exact h.2
  · obtain ⟨k, hk, h⟩ := C113_values general (.mul b a) (hne _ _ hb)
    refine ⟨k, hk, fun x y => ?_⟩
    rcases h with h | h
    · rw [h.2, PExpr.den, mul_comm]
    · exact absurd ⟨hbf, haf, fun _ _ => ⟨fun h => absurd h hap, fun _ _ => htop⟩⟩ h.1

/-! ## Examples -/

/-- `2 * RBF() + 3` -/
example : ((PExpr.add (.mul (.num 2) (.atom (.rbf fun _ => 1))) (.num 3) : PExpr 1).atoms ≠ []) ∧
    ¬ (PExpr.add (.mul (.num 2) (.atom (.rbf fun _ => 1))) (.num 3) : PExpr 1).HasPow := by
  simp [PExpr.atoms, PExpr.HasPow]

/-- `RBF() + RBF()**2` and `RBF()**2 + RBF()` -/
example : ¬ (PExpr.add (.atom (.rbf fun _ => 1)) (.pow (.atom (.rbf fun _ => 1)) 2) : PExpr 1).Fine ∧
    (PExpr.add (.pow (.atom (.rbf fun _ => 1)) 2) (.atom (.rbf fun _ => 1)) : PExpr 1).Fine := by
  simp [PExpr.Fine, PExpr.HasPow, PExpr.atoms, PExpr.top, Atom.cls]

/-- `(RBF()**2 + RBF()) + (RBF() + RBF())`: two sums, the left one of scikit-learn -/
example : ¬ (PExpr.add (.add (.pow (.atom (.rbf fun _ => 1)) 2) (.atom (.rbf fun _ => 1)))
    (.add (.atom (.rbf fun _ => 1)) (.atom (.rbf fun _ => 1))) : PExpr 1).Fine := by
  simp [PExpr.Fine, PExpr.HasPow, PExpr.atoms, PExpr.top, Atom.cls]

/-- `2 * RBF + 3`: the value and the gradient. -/
example (general : ℕ → ℝ → ℝ) : ∃ k, (PExpr.add (.mul (.num 2) (.atom (.rbf fun _ => 1))) (.num 3) : PExpr 1).build = .ker k ∧
    ∀ x y, k.value general x y = .ok (2 * (Atom.rbf fun _ => 1 : Atom 1).expr.eval general x y + 3) := by
  obtain ⟨k, hk, h⟩ := C113_values general (PExpr.add (.mul (.num 2) (.atom (.rbf fun _ => 1))) (.num 3) : PExpr 1) (by simp [PExpr.atoms])
  refine ⟨k, hk, ?_⟩
  rcases h with ⟨-, h⟩ | ⟨h, -⟩
  · exact h
  · exact absurd (by simp [PExpr.Fine, PExpr.atoms]) h

example (general : ℕ → ℝ → ℝ) : ∃ k, (PExpr.add (.mul (.num 2) (.atom (.rbf fun _ => 1))) (.num 3) : PExpr 1).build = .ker k ∧
    ∀ x y g, k.gradX general x y = .ok g → HasPartial (fun x => 2 * (Atom.rbf fun _ => 1 : Atom 1).expr.eval general x y + 3) x 0 (g 0) := by
  obtain ⟨k, hk, -, h⟩ := C113_gradient general (PExpr.add (.mul (.num 2) (.atom (.rbf fun _ => 1))) (.num 3) : PExpr 1) (by simp [PExpr.atoms])
    (by simp [PExpr.HasPow])
  exact ⟨k, hk, fun x y g hg => h x y g (by simp [PExpr.atoms, Atom.Regular]) hg 0⟩

end GPry.KernelOps
