import Verif.AcqObj
import Verif.CobayaProps
import Mathlib.Algebra.Order.Ring.Rat

set_option linter.all false

/-!
# Operators, equality and parameters of acquisition functions (C111)
-/

namespace GPry.AcqObj

open GPry Cobaya

variable {K : Type} [Field K] [LinearOrder K]

/-! ## Equality -/

theorem same_symm {a b : Pv K} (h : a.same b = true) : b.same a = true := by
  unfold Pv.same at h ⊢
  simp only [Bool.and_eq_true, decide_eq_true_eq, Bool.not_eq_true'] at h ⊢
  refine ⟨h.1.symm, ?_⟩
  have h1 := h.1
  have h2 := h.2
  cases a with
  | none => cases b with
    | none => rfl
    | bool b => rfl
    | num x => simp [Pv.norm] at h1
  | bool a => cases b with
    | none => rfl
    | bool b => rfl
    | num x =>
      simp [Pv.norm] at h1
      subst h1
      rfl
  | num y => cases b with
    | none => rfl
    | bool b => rfl
    | num x =>
      simp [Pv.norm] at h1
      subst h1
      exact h2

theorem same_trans {a b c : Pv K} (h : a.same b = true) (h' : b.same c = true) : a.same c = true := by
  unfold Pv.same at h h' ⊢
  simp only [Bool.and_eq_true, decide_eq_true_eq, Bool.not_eq_true'] at h h' ⊢
  exact ⟨h.1.trans h'.1, h.2⟩

theorem same_none : (Pv.none : Pv K).same .none = true := by
  unfold Pv.same
  simp [Pv.isNan]

theorem get_absent (p : Dict (List Char) (Pv K)) (k : List Char) (h : k ∉ p.map Prod.fst) : get p k = none := by
  induction p with
  | nil => rfl
  | cons q p ih =>
    rw [get_cons]
    simp only [List.map_cons, List.mem_cons, not_or] at h
    rw [if_neg fun he => h.1 (by simpa using he.symm)]
    exact ih h.2

/-- The parameters agree for every name. -/
theorem sameParams_iff (p q : Dict (List Char) (Pv K)) :
    sameParams p q = true ↔ ∀ k, ((get p k).getD .none).same ((get q k).getD .none) = true := by
  unfold sameParams
  rw [List.all_eq_true]
  constructor
  · intro h k
    by_cases hk : k ∈ p.map Prod.fst ++ q.map Prod.fst
    · exact h k hk
    · rw [List.mem_append, not_or] at hk
      rw [get_absent p k hk.1, get_absent q k hk.2]
      exact same_none
  · intro h k _
    exact h k

/-- No parameter is NaN. -/
def NoNan : Af K → Prop
  | .leaf _ p => ∀ q ∈ p, q.2.isNan = false
  | .sum a b => NoNan a ∧ NoNan b
  | .prod a b => NoNan a ∧ NoNan b
  | .pow a p => NoNan a ∧ p.isNan = false

theorem same_refl {a : Pv K} (h : a.isNan = false) : a.same a = true := by
  unfold Pv.same; simp [h]

theorem get_mem {p : Dict (List Char) (Pv K)} {k : List Char} {v : Pv K} (h : get p k = some v) : (k, v) ∈ p := by
  induction p with
  | nil => simp [get_nil] at h
  | cons q p ih =>
    rw [get_cons] at h
    split_ifs at h with he
    · cases h
      have : q = (k, q.2) := by rw [← he]
      rw [this]; exact List.mem_cons_self
    · exact List.mem_cons_of_mem _ (ih h)

theorem eq_refl (a : Af K) (h : NoNan a) : a.eq a = true := by
  induction a with
  | leaf c p =>
    unfold Af.eq
    rw [decide_eq_true rfl, Bool.true_and, sameParams_iff]
    intro k
    cases hg : get p k with
    | none => exact same_none
    | some v => exact same_refl (h _ (get_mem hg))
  | sum a b iha ihb => unfold Af.eq; rw [iha h.1, ihb h.2]; rfl
  | prod a b iha ihb => unfold Af.eq; rw [iha h.1, ihb h.2]; rfl
  | pow a p iha => unfold Af.eq; rw [iha h.1, same_refl h.2]; rfl

theorem eq_symm (a b : Af K) (h : a.eq b = true) : b.eq a = true := by
  induction a generalizing b with
  | leaf c p => cases b with
    | leaf c' q =>
      unfold Af.eq at h ⊢
      simp only [Bool.and_eq_true, decide_eq_true_eq, sameParams_iff] at h ⊢
      exact ⟨h.1.symm, fun k => same_symm (h.2 k)⟩
    | _ => simp [Af.eq] at h
  | sum a a' iha iha' => cases b with
    | sum b b' =>
      unfold Af.eq at h ⊢
      simp only [Bool.or_eq_true, Bool.and_eq_true] at h ⊢
      rcases h with h | h
      · exact .inl ⟨iha _ h.1, iha' _ h.2⟩
      · exact .inr ⟨iha' _ h.2, iha _ h.1⟩
    | _ => simp [Af.eq] at h
  | prod a a' iha iha' => cases b with
    | prod b b' =>
      unfold Af.eq at h ⊢
      simp only [Bool.or_eq_true, Bool.and_eq_true] at h ⊢
      rcases h with h | h
      · exact .inl ⟨iha _ h.1, iha' _ h.2⟩
      · exact .inr ⟨iha' _ h.2, iha _ h.1⟩
    | _ => simp [Af.eq] at h
  | pow a p iha => cases b with
    | pow b q =>
      unfold Af.eq at h ⊢
      simp only [Bool.and_eq_true] at h ⊢
      exact ⟨iha _ h.1, same_symm h.2⟩
    | _ => simp [Af.eq] at h

theorem eq_trans (a b c : Af K) (h : a.eq b = true) (h' : b.eq c = true) : a.eq c = true := by
  induction a generalizing b c with
  | leaf n p => cases b with
    | leaf n' q => cases c with
      | leaf n'' r =>
        unfold Af.eq at h h' ⊢
        simp only [Bool.and_eq_true, decide_eq_true_eq, sameParams_iff] at h h' ⊢
        exact ⟨h.1.trans h'.1, fun k => same_trans (h.2 k) (h'.2 k)⟩
      | _ => simp [Af.eq] at h'
    | _ => simp [Af.eq] at h
  | sum a₁ a₂ ih₁ ih₂ => cases b with
    | sum b₁ b₂ => cases c with
      | sum c₁ c₂ =>
        unfold Af.eq at h h' ⊢
        simp only [Bool.or_eq_true, Bool.and_eq_true] at h h' ⊢
        rcases h with h | h <;> rcases h' with h' | h'
        · exact .inl ⟨ih₁ _ _ h.1 h'.1, ih₂ _ _ h.2 h'.2⟩
        · exact .inr ⟨ih₁ _ _ h.1 h'.1, ih₂ _ _ h.2 h'.2⟩
        · exact .inr ⟨ih₁ _ _ h.1 h'.2, ih₂ _ _ h.2 h'.1⟩
        · exact .inl ⟨ih₁ _ _ h.1 h'.2, ih₂ _ _ h.2 h'.1⟩
      | _ => simp [Af.eq] at h'
    | _ => simp [Af.eq] at h
  | prod a₁ a₂ ih₁ ih₂ => cases b with
    | prod b₁ b₂ => cases c with
      | prod c₁ c₂ =>
        unfold Af.eq at h h' ⊢
        simp only [Bool.or_eq_true, Bool.and_eq_true] at h h' ⊢
        rcases h with h | h <;> rcases h' with h' | h'
        · exact .inl ⟨ih₁ _ _ h.1 h'.1, ih₂ _ _ h.2 h'.2⟩
        · exact .inr ⟨ih₁ _ _ h.1 h'.1, ih₂ _ _ h.2 h'.2⟩
        · exact .inr ⟨ih₁ _ _ h.1 h'.2, ih₂ _ _ h.2 h'.1⟩
        · exact .inl ⟨ih₁ _ _ h.1 h'.2, ih₂ _ _ h.2 h'.1⟩
      | _ => simp [Af.eq] at h'
    | _ => simp [Af.eq] at h
  | pow a p ih => cases b with
    | pow b q => cases c with
      | pow c r =>
        unfold Af.eq at h h' ⊢
        simp only [Bool.and_eq_true] at h h' ⊢
        exact ⟨ih _ _ h.1 h'.1, same_trans h.2 h'.2⟩
      | _ => simp [Af.eq] at h'
    | _ => simp [Af.eq] at h

/-- **C111**: `==` is an equivalence relation (reflexive if no parameter is NaN). -/
theorem C111_equivalence : (∀ a : Af K, NoNan a → a.eq a = true) ∧ (∀ a b : Af K, a.eq b = b.eq a) ∧
    ∀ a b c : Af K, a.eq b = true → b.eq c = true → a.eq c = true := by
  refine ⟨eq_refl, fun a b => ?_, eq_trans⟩
  cases h : a.eq b with
  | true => exact (eq_symm a b h).symm
  | false => cases h' : b.eq a with
    | true => rw [eq_symm b a h'] at h; cases h
    | false => rfl

/-- Without that, an expression with a NaN is different from itself. -/
theorem C111_nan_counterexample : ((const .nan : Af ℚ).eq (const .nan)) = false := by decide

/-- **C111**: acquisition functions that compare equal have the same value at every point, if those of the leaves depend on their class and
parameters only. -/
theorem C111_equal_value {P : Type} (F : String → (List Char → Pv K) → P → K) (pw : Pv K → K → Option K)
    (hF : ∀ c f g, (∀ k, (f k).same (g k) = true) → F c f = F c g) (hpw : ∀ p q, p.same q = true → pw p = pw q)
    (a b : Af K) (h : a.eq b = true) (x : P) : a.value F pw x = b.value F pw x := by
  induction a generalizing b with
  | leaf c p => cases b with
    | leaf c' q =>
      unfold Af.eq at h
      simp only [Bool.and_eq_true, decide_eq_true_eq, sameParams_iff] at h
      obtain ⟨rfl, h⟩ := h
      unfold Af.value
      rw [hF c _ _ h]
    | _ => simp [Af.eq] at h
  | sum a₁ a₂ ih₁ ih₂ => cases b with
    | sum b₁ b₂ =>
      unfold Af.eq at h
      simp only [Bool.or_eq_true, Bool.and_eq_true] at h
      unfold Af.value
      rcases h with h | h <;> rw [ih₁ _ h.1, ih₂ _ h.2]
      rcases b₂.value F pw x with _ | u <;> rcases b₁.value F pw x with _ | v <;> simp [add_comm]
    | _ => simp [Af.eq] at h
  | prod a₁ a₂ ih₁ ih₂ => cases b with
    | prod b₁ b₂ =>
      unfold Af.eq at h
      simp only [Bool.or_eq_true, Bool.and_eq_true] at h
      unfold Af.value
      rcases h with h | h <;> rw [ih₁ _ h.1, ih₂ _ h.2]
      rcases b₂.value F pw x with _ | u <;> rcases b₁.value F pw x with _ | v <;> simp [mul_comm]
    | _ => simp [Af.eq] at h
  | pow a p ih => cases b with
    | pow b q =>
      unfold Af.eq at h
      simp only [Bool.and_eq_true] at h
      unfold Af.value
      rw [ih _ h.1, hpw _ _ h.2]
    | _ => simp [Af.eq] at h

/-- **C111**: the operators with numbers on either side, and the order of the operands does not matter for `==`. -/
theorem C111_operators {P : Type} (F : String → (List Char → Pv K) → P → K) (pw : Pv K → K → Option K)
    (hF : ∀ f v x, f "constant_value".toList = .num (.fin v) → F "ConstantAcqFunc" f x = v) (a : Af K) (hn : NoNan a) (v u : K) (x : P)
    (ha : a.value F pw x = some u) :
    (add a (.num (.fin v))).value F pw x = some (u + v) ∧ (radd a (.num (.fin v))).value F pw x = some (v + u) ∧
    (mul a (.num (.fin v))).value F pw x = some (u * v) ∧ (rmul a (.num (.fin v))).value F pw x = some (v * u) ∧
    (add a (.num (.fin v))).eq (radd a (.num (.fin v))) = true ∧ (mul a (.num (.fin v))).eq (rmul a (.num (.fin v))) = true := by
  have hc : (const (.fin v) : Af K).value F pw x = some v := by
    unfold const Af.value
    rw [hF _ v x rfl]
  have hcn : NoNan (const (.fin v) : Af K) := by
    intro q hq
    simp only [const, List.mem_cons, List.not_mem_nil, or_false] at hq
    rcases hq with rfl | rfl | rfl <;> rfl
  refine ⟨?_, ?_, ?_, ?_, ?_, ?_⟩
  · simp [add, toAf, Af.value, hc, ha]
  · simp [radd, toAf, Af.value, hc, ha]
  · simp [mul, toAf, Af.value, hc, ha]
  · simp [rmul, toAf, Af.value, hc, ha]
  · simp [add, radd, toAf, Af.eq, eq_refl a hn, eq_refl _ hcn]
  · simp [mul, rmul, toAf, Af.eq, eq_refl a hn, eq_refl _ hcn]

/-! ## Parameters -/

theorem split_cons (c c' : Char) (s : List Char) (h : ¬ (c = '_' ∧ c' = '_')) :
    splitDbl (c :: c' :: s) = (splitDbl (c' :: s)).map fun q => (c :: q.1, q.2) := by
  rw [splitDbl, if_neg h]

theorem split_k1 (s : List Char) : splitDbl ("k1__".toList ++ s) = some ("k1".toList, s) := by
  simp [splitDbl]
theorem split_k2 (s : List Char) : splitDbl ("k2__".toList ++ s) = some ("k2".toList, s) := by
  simp [splitDbl]
theorem split_af (s : List Char) : splitDbl ("acquisition_function__".toList ++ s) = some ("acquisition_function".toList, s) := by
  simp [splitDbl]

/-- Names without double underscores, and different. -/
def WellNamed : Af K → Prop
  | .leaf _ p => (p.map Prod.fst).Nodup ∧ ∀ k ∈ p.map Prod.fst, splitDbl k = none
  | .sum a b => WellNamed a ∧ WellNamed b
  | .prod a b => WellNamed a ∧ WellNamed b
  | .pow a _ => WellNamed a

/-- The value of the parameter with a given name, if it is not an operand. -/
def scalar (a : Af K) (k : List Char) (v : Pv K) : Prop := (k, Sum.inl v) ∈ a.getParams

theorem scalar_op (a b : Af K) (k : List Char) (v : Pv K) (op : Af K → Af K → Af K) (ho : op = .sum ∨ op = .prod) :
    scalar (op a b) k v ↔ (∃ s, k = "k1__".toList ++ s ∧ scalar a s v) ∨ ∃ s, k = "k2__".toList ++ s ∧ scalar b s v := by
  have key : (op a b).getParams = [("k1".toList, .inr a), ("k2".toList, .inr b)] ++ nested "k1__".toList a.getParams ++ nested "k2__".toList b.getParams := by
    rcases ho with rfl | rfl <;> rfl
  unfold scalar
  rw [key]
  simp only [nested, List.mem_append, List.mem_cons, List.not_mem_nil, or_false, Prod.mk.injEq, reduceCtorEq, and_false, false_or, List.mem_map]
  constructor
  · rintro (⟨⟨s, w⟩, h, he⟩ | ⟨⟨s, w⟩, h, he⟩)
    · simp only [Prod.mk.injEq] at he
      exact .inl ⟨s, he.1.symm, he.2 ▸ h⟩
    · simp only [Prod.mk.injEq] at he
      exact .inr ⟨s, he.1.symm, he.2 ▸ h⟩
  · rintro (⟨s, rfl, h⟩ | ⟨s, rfl, h⟩)
    · exact .inl ⟨(s, .inl v), h, rfl, rfl⟩
    · exact .inr ⟨(s, .inl v), h, rfl, rfl⟩

theorem scalar_pow (a : Af K) (p : Pv K) (k : List Char) (v : Pv K) :
    scalar (.pow a p) k v ↔ (k = "exponent".toList ∧ v = p) ∨ ∃ s, k = "acquisition_function__".toList ++ s ∧ scalar a s v := by
  unfold scalar
  simp only [Af.getParams, nested, List.mem_append, List.mem_cons, List.not_mem_nil, or_false, Prod.mk.injEq, reduceCtorEq, and_false, false_or, List.mem_map,
    Sum.inl.injEq]
  constructor
  · rintro (h | ⟨⟨s, w⟩, h, he⟩)
    · exact .inl h
    · simp only [Prod.mk.injEq] at he
      exact .inr ⟨s, he.1.symm, he.2 ▸ h⟩
  · rintro (h | ⟨s, rfl, h⟩)
    · exact .inl h
    · exact .inr ⟨(s, .inl v), h, rfl, rfl⟩

theorem scalar_leaf (c : String) (p : Dict (List Char) (Pv K)) (k : List Char) (v : Pv K) : scalar (.leaf c p) k v ↔ (k, v) ∈ p := by
  unfold scalar Af.getParams
  rw [List.mem_map]
  constructor
  · rintro ⟨q, hq, he⟩
    simp only [Prod.mk.injEq, Sum.inl.injEq] at he
    rw [← he.1, ← he.2]; exact hq
  · intro h
    exact ⟨_, h, rfl⟩

theorem mem_put (p : Dict (List Char) (Pv K)) (k : List Char) (v : Pv K) (hk : k ∈ p.map Prod.fst) :
    (put p (k, v)).map Prod.fst = p.map Prod.fst ∧ ∀ k' w, (k', w) ∈ put p (k, v) ↔ (k' = k ∧ w = v) ∨ (k' ≠ k ∧ (k', w) ∈ p) := by
  have e : put p (k, v) = p.map fun r => if r.1 = k then (r.1, v) else r := by
    unfold put
    rw [if_pos hk]
  rw [e]
  refine ⟨?_, fun k' w => ?_⟩
  · rw [List.map_map]
    refine List.map_congr_left fun r _ => ?_
    simp only [Function.comp]
    split_ifs <;> rfl
  · rw [List.mem_map]
    constructor
    · rintro ⟨r, hr, he⟩
      split_ifs at he with h
      · simp only [Prod.mk.injEq] at he
        exact .inl ⟨he.1.symm.trans h, he.2.symm⟩
      · subst he
        exact .inr ⟨h, hr⟩
    · rintro (⟨rfl, rfl⟩ | ⟨hne, hm⟩)
      · obtain ⟨r, hr, he⟩ := List.mem_map.1 hk
        exact ⟨r, hr, by rw [if_pos he, he]⟩
      · exact ⟨_, hm, by rw [if_neg hne]⟩

theorem set_op (op : Af K → Af K → Af K) (ho : op = .sum ∨ op = .prod) (a b : Af K) (s : List Char) (v : Pv K ⊕ Af K) :
    (op a b).setOne ("k1__".toList ++ s) v = ((a.setOne s v).map fun a' => op a' b) ∧
    (op a b).setOne ("k2__".toList ++ s) v = ((b.setOne s v).map fun b' => op a b') := by
  rcases ho with rfl | rfl
  · refine ⟨?_, ?_⟩
    · rw [Af.setOne.eq_def]; dsimp only; rw [split_k1]; rfl
    · rw [Af.setOne.eq_def]; dsimp only; rw [split_k2]; rfl
  · refine ⟨?_, ?_⟩
    · rw [Af.setOne.eq_def]; dsimp only; rw [split_k1]; rfl
    · rw [Af.setOne.eq_def]; dsimp only; rw [split_k2]; rfl

theorem k1_ne_k2 (s t : List Char) : "k1__".toList ++ s ≠ "k2__".toList ++ t := by simp

/-- What setting one parameter must do. -/
def SetsOnly (a a' : Af K) (k : List Char) (v : Pv K) : Prop :=
  ∀ k' w, scalar a' k' w ↔ (k' = k ∧ w = v) ∨ (k' ≠ k ∧ scalar a k' w)

theorem set_params_op (op : Af K → Af K → Af K) (ho : op = .sum ∨ op = .prod) (a b : Af K) (v : Pv K)
    (iha : ∀ k v0, scalar a k v0 → ∃ a', a.setOne k (.inl v) = .ok a' ∧ SetsOnly a a' k v)
    (ihb : ∀ k v0, scalar b k v0 → ∃ b', b.setOne k (.inl v) = .ok b' ∧ SetsOnly b b' k v)
    (k : List Char) (v0 : Pv K) (h : scalar (op a b) k v0) : ∃ c, (op a b).setOne k (.inl v) = .ok c ∧ SetsOnly (op a b) c k v := by
  rw [scalar_op _ _ _ _ op ho] at h
  rcases h with ⟨s, rfl, h⟩ | ⟨s, rfl, h⟩
  · obtain ⟨a', h1, h2⟩ := iha s v0 h
    refine ⟨op a' b, by rw [(set_op op ho a b s _).1, h1]; rfl, fun k' w => ?_⟩
    rw [scalar_op _ _ _ _ op ho, scalar_op _ _ _ _ op ho]
    constructor
    · rintro (⟨t, rfl, ht⟩ | ⟨t, rfl, ht⟩)
      · rcases (h2 t w).1 ht with ⟨rfl, rfl⟩ | ⟨hne, ht⟩
        · exact .inl ⟨rfl, rfl⟩
        · exact .inr ⟨fun he => hne (List.append_cancel_left he), .inl ⟨t, rfl, ht⟩⟩
      · exact .inr ⟨fun he => k1_ne_k2 s t he.symm, .inr ⟨t, rfl, ht⟩⟩
    · rintro (⟨rfl, rfl⟩ | ⟨hne, ⟨t, rfl, ht⟩ | ⟨t, rfl, ht⟩⟩)
      · exact .inl ⟨s, rfl, (h2 s w).2 (.inl ⟨rfl, rfl⟩)⟩
      · exact .inl ⟨t, rfl, (h2 t w).2 (.inr ⟨fun he => hne (by rw [he]), ht⟩)⟩
      · exact .inr ⟨t, rfl, ht⟩
  · obtain ⟨b', h1, h2⟩ := ihb s v0 h
    refine ⟨op a b', by rw [(set_op op ho a b s _).2, h1]; rfl, fun k' w => ?_⟩
    rw [scalar_op _ _ _ _ op ho, scalar_op _ _ _ _ op ho]
    constructor
    · rintro (⟨t, rfl, ht⟩ | ⟨t, rfl, ht⟩)
      · exact .inr ⟨fun he => k1_ne_k2 t s he, .inl ⟨t, rfl, ht⟩⟩
      · rcases (h2 t w).1 ht with ⟨rfl, rfl⟩ | ⟨hne, ht⟩
        · exact .inl ⟨rfl, rfl⟩
        · exact .inr ⟨fun he => hne (List.append_cancel_left he), .inr ⟨t, rfl, ht⟩⟩
    · rintro (⟨rfl, rfl⟩ | ⟨hne, ⟨t, rfl, ht⟩ | ⟨t, rfl, ht⟩⟩)
      · exact .inr ⟨s, rfl, (h2 s w).2 (.inl ⟨rfl, rfl⟩)⟩
      · exact .inl ⟨t, rfl, ht⟩
      · exact .inr ⟨t, rfl, (h2 t w).2 (.inr ⟨fun he => hne (by rw [he]), ht⟩)⟩

/-- **C111**: every parameter (that is not an operand) listed by `get_params`, at any depth, can be set through the name listed; afterwards
`get_params` lists the new value under this name, and every other one as before. -/
theorem C111_set_params (a : Af K) (hw : WellNamed a) (k : List Char) (v0 v : Pv K) (h : (k, Sum.inl v0) ∈ a.getParams) :
    ∃ a', a.setOne k (.inl v) = .ok a' ∧
      ∀ k' w, (k', Sum.inl w) ∈ a'.getParams ↔ (k' = k ∧ w = v) ∨ (k' ≠ k ∧ (k', Sum.inl w) ∈ a.getParams) := by
  suffices H : ∀ (a : Af K), WellNamed a → ∀ k v0, scalar a k v0 → ∃ a', a.setOne k (.inl v) = .ok a' ∧ SetsOnly a a' k v from H a hw k v0 h
  clear h hw
  intro a
  induction a with
  | leaf c p =>
    intro hw k v0 h
    rw [scalar_leaf] at h
    have hk : k ∈ p.map Prod.fst := List.mem_map.2 ⟨_, h, rfl⟩
    refine ⟨.leaf c (put p (k, v)), ?_, fun k' w => ?_⟩
    · rw [Af.setOne.eq_def]; dsimp only; rw [hw.2 k hk]
      dsimp only
      rw [if_pos hk]
    · rw [scalar_leaf, scalar_leaf]
      exact (mem_put p k v hk).2 k' w
  | sum a b iha ihb =>
    intro hw
    exact set_params_op .sum (.inl rfl) a b v (iha hw.1) (ihb hw.2)
  | prod a b iha ihb =>
    intro hw
    exact set_params_op .prod (.inr rfl) a b v (iha hw.1) (ihb hw.2)
  | pow a p iha =>
    intro hw k v0 h
    rw [scalar_pow] at h
    rcases h with ⟨rfl, rfl⟩ | ⟨s, rfl, h⟩
    · have hs : splitDbl "exponent".toList = none := by decide
      refine ⟨.pow a v, by rw [Af.setOne.eq_def]; dsimp only; rw [hs]; rfl, fun k' w => ?_⟩
      rw [scalar_pow, scalar_pow]
      constructor
      · rintro (h | ⟨t, rfl, ht⟩)
        · exact .inl h
        · exact .inr ⟨by simp, .inr ⟨t, rfl, ht⟩⟩
      · rintro (h | ⟨hne, h | h⟩)
        · exact .inl h
        · exact absurd h.1 hne
        · exact .inr h
    · obtain ⟨a', h1, h2⟩ := iha hw s v0 h
      refine ⟨.pow a' p, by rw [Af.setOne.eq_def]; dsimp only; rw [split_af]; dsimp only; rw [if_pos rfl, h1]; rfl, fun k' w => ?_⟩
      rw [scalar_pow, scalar_pow]
      constructor
      · rintro (⟨rfl, rfl⟩ | ⟨t, rfl, ht⟩)
        · exact .inr ⟨by simp, .inl ⟨rfl, rfl⟩⟩
        · rcases (h2 t w).1 ht with ⟨rfl, rfl⟩ | ⟨hne, ht⟩
          · exact .inl ⟨rfl, rfl⟩
          · exact .inr ⟨fun he => hne (List.append_cancel_left he), .inr ⟨t, rfl, ht⟩⟩
      · rintro (⟨rfl, rfl⟩ | ⟨hne, h | ⟨t, rfl, ht⟩⟩)
        · exact .inr ⟨s, rfl, (h2 s w).2 (.inl ⟨rfl, rfl⟩)⟩
        · exact .inl h
        · exact .inr ⟨t, rfl, (h2 t w).2 (.inr ⟨fun he => hne (by rw [he]), ht⟩)⟩

theorem split_eq {k n s : List Char} (h : splitDbl k = some (n, s)) : k = n ++ "__".toList ++ s := by
  induction k generalizing n s with
  | nil => simp [splitDbl] at h
  | cons c k ih => cases k with
    | nil => simp [splitDbl] at h
    | cons c' k =>
      rw [splitDbl] at h
      split_ifs at h with he
      · cases h
        rw [he.1, he.2]; rfl
      · rcases hq : splitDbl (c' :: k) with _ | ⟨n', s'⟩
        · rw [hq] at h; cases h
        · rw [hq] at h
          simp only [Option.map_some, Option.some.injEq, Prod.mk.injEq] at h
          rw [ih hq, ← h.1, ← h.2]; rfl

/-- **C111**: what can be set is listed: a name that `get_params` does not list is refused. -/
theorem C111_unknown (a : Af K) (k : List Char) (v : Pv K ⊕ Af K) (h : k ∉ a.getParams.map Prod.fst) : ∃ e, a.setOne k v = .error e := by
  have opc : ∀ (op : Af K → Af K → Af K), (op = .sum ∨ op = .prod) → ∀ a b : Af K,
      (∀ k, k ∉ a.getParams.map Prod.fst → ∃ e, a.setOne k v = .error e) → (∀ k, k ∉ b.getParams.map Prod.fst → ∃ e, b.setOne k v = .error e) →
      ∀ k, k ∉ (op a b).getParams.map Prod.fst → ∃ e, (op a b).setOne k v = .error e := by
    intro op ho a b iha ihb k h
    have key : (op a b).getParams = [("k1".toList, .inr a), ("k2".toList, .inr b)] ++ nested "k1__".toList a.getParams ++ nested "k2__".toList b.getParams := by
      rcases ho with rfl | rfl <;> rfl
    have key2 : (op a b).setOne k v = match splitDbl k with
      | some (n, s) => if n = "k1".toList then (a.setOne s v).map fun a' => op a' b
        else if n = "k2".toList then (b.setOne s v).map fun b' => op a b' else .error .valueError
      | none => match v with
        | .inr x => if k = "k1".toList then .ok (op x b) else if k = "k2".toList then .ok (op a x) else .error .valueError
        | .inl _ => if k = "k1".toList ∨ k = "k2".toList then .error .typeError else .error .valueError := by
      rcases ho with rfl | rfl <;> (rw [Af.setOne.eq_def]; dsimp only; rcases splitDbl k with _ | ⟨n, s⟩ <;> rcases v with v | v <;> rfl)
    rw [key] at h
    simp only [List.map_append, List.map_cons, List.map_nil, List.mem_append, List.mem_cons, List.not_mem_nil, or_false, not_or, nested, List.map_map] at h
    obtain ⟨⟨⟨h1, h2⟩, h3⟩, h4⟩ := h
    rw [key2]
    rcases hs : splitDbl k with _ | ⟨n, s⟩
    · dsimp only
      cases v with
      | inl x => dsimp only; rw [if_neg (by rintro (h | h); exacts [h1 h, h2 h])]; exact ⟨_, rfl⟩
      | inr x => dsimp only; rw [if_neg h1, if_neg h2]; exact ⟨_, rfl⟩
    · have he := split_eq hs
      dsimp only
      split_ifs with hn1 hn2
      · obtain ⟨e, h⟩ := iha s (fun hm => h3 (by
          obtain ⟨q, hq, hqe⟩ := List.mem_map.1 hm
          refine List.mem_map.2 ⟨q, hq, ?_⟩
          simp only [Function.comp]
          rw [he, hn1, hqe]; rfl))
        exact ⟨e, by rw [h]; rfl⟩
      · obtain ⟨e, h⟩ := ihb s (fun hm => h4 (by
          obtain ⟨q, hq, hqe⟩ := List.mem_map.1 hm
          refine List.mem_map.2 ⟨q, hq, ?_⟩
          simp only [Function.comp]
          rw [he, hn2, hqe]; rfl))
        exact ⟨e, by rw [h]; rfl⟩
      · exact ⟨_, rfl⟩
  induction a generalizing k with
  | leaf c p =>
    rw [Af.setOne.eq_def]
    dsimp only
    rcases hs : splitDbl k with _ | ⟨n, s⟩
    · dsimp only
      rw [if_neg (by
        intro hk
        apply h
        simpa [Af.getParams] using hk)]
      exact ⟨_, rfl⟩
    · dsimp only
      split_ifs <;> exact ⟨_, rfl⟩
  | sum a b iha ihb => exact opc .sum (.inl rfl) a b iha ihb k h
  | prod a b iha ihb => exact opc .prod (.inr rfl) a b iha ihb k h
  | pow a p iha =>
    simp only [Af.getParams, List.map_append, List.map_cons, List.map_nil, List.mem_append, List.mem_cons, List.not_mem_nil, or_false, not_or, nested,
      List.map_map] at h
    obtain ⟨⟨h1, h2⟩, h3⟩ := h
    rw [Af.setOne.eq_def]
    dsimp only
    rcases hs : splitDbl k with _ | ⟨n, s⟩
    · dsimp only
      cases v with
      | inl x => dsimp only; rw [if_neg h2, if_neg h1]; exact ⟨_, rfl⟩
      | inr x => dsimp only; rw [if_neg h1, if_neg h2]; exact ⟨_, rfl⟩
    · have he := split_eq hs
      dsimp only
      split_ifs with hn1 hn2
      · obtain ⟨e, h⟩ := iha s (fun hm => h3 (by
          obtain ⟨q, hq, hqe⟩ := List.mem_map.1 hm
          refine List.mem_map.2 ⟨q, hq, ?_⟩
          simp only [Function.comp]
          rw [he, hn1, hqe]; rfl))
        exact ⟨e, by rw [h]; rfl⟩
      · exact ⟨_, rfl⟩
      · exact ⟨_, rfl⟩

/-- The name of the multiplier of `Mu` in the examples. -/
def exMu (a : ℚ) : Af ℚ := .leaf "Mu" [("a".toList, .num (.fin a)), ("fixed".toList, .bool false), ("dimension".toList, .none)]

/-- **C111** is false if an operand and a parameter of it are given together: the parameter is set in the operand that is being replaced. -/
theorem C111_replaced_counterexample :
    (((Af.sum (exMu 1) (exMu 2)).setParams [] [("k1".toList, .inr (exMu 3)), ("k1__a".toList, .inl (.num (.fin 4)))]).toOption.map fun a =>
      (get a.getParams "k1__a".toList).bind Sum.getLeft?) = some (some (.num (.fin 3))) := by
  decide

/-- **C111**: several parameters, none of them in an operand that is replaced in the same call, are set one after the other. -/
theorem C111_several (a : Af K) (l : List (List Char × (Pv K ⊕ Af K))) (h : ∀ q ∈ l, splitDbl q.1 ≠ none) (r : List (List Char))
    (hr : ∀ q ∈ l, ∀ n s, splitDbl q.1 = some (n, s) → n ∉ r) :
    a.setParams r l = l.foldl (fun e q => e.bind fun a => a.setOne q.1 q.2) (.ok a) := by
  induction l generalizing a with
  | nil => rfl
  | cons q l ih =>
    obtain ⟨k, v⟩ := q
    have hk := h (k, v) List.mem_cons_self
    rw [Af.setParams]
    rcases hs : splitDbl k with _ | ⟨n, s⟩
    · exact absurd hs hk
    · dsimp only
      rw [if_neg (hr (k, v) List.mem_cons_self n s hs), List.foldl_cons]
      have herr : ∀ (l : List (List Char × (Pv K ⊕ Af K))) (e : AErr),
          l.foldl (fun e q => e.bind fun a => a.setOne q.1 q.2) (.error e : Except AErr (Af K)) = .error e := by
        intro l e
        induction l with
        | nil => rfl
        | cons q l ih => exact ih
      show _ = List.foldl _ (a.setOne k v) l
      rcases a.setOne k v with e | a'
      · exact (herr l e).symm
      · exact ih a' (fun q hq => h q (List.mem_cons_of_mem _ hq)) (fun q hq => hr q (List.mem_cons_of_mem _ hq))

/-- C111: a nested parameter of `(Mu + Mu) ** 2`. -/
example : WellNamed (Af.pow (.sum (exMu 1) (exMu 2)) (.num (.fin 2))) ∧
    (("acquisition_function__k2__a".toList, Sum.inl (.num (.fin 2))) ∈ (Af.pow (.sum (exMu 1) (exMu 2)) (.num (.fin 2))).getParams) ∧
    (((Af.pow (.sum (exMu 1) (exMu 2)) (.num (.fin 2))).setOne "acquisition_function__k2__a".toList (.inl (.num (.fin 7)))).toOption.map fun a =>
      a.eq (Af.pow (.sum (exMu 7) (exMu 1)) (.num (.fin 2)))) = some true := by
  refine ⟨?_, ?_, by decide⟩
  · simp only [WellNamed, exMu]
    refine ⟨⟨by decide, by decide⟩, ⟨by decide, by decide⟩⟩
  · have : scalar (Af.pow (.sum (exMu 1) (exMu 2)) (.num (.fin 2))) "acquisition_function__k2__a".toList (.num (.fin 2)) := by
      rw [scalar_pow]
      refine .inr ⟨"k2__a".toList, rfl, ?_⟩
      rw [scalar_op _ _ _ _ .sum (.inl rfl)]
      exact .inr ⟨"a".toList, rfl, by rw [exMu, scalar_leaf]; exact List.mem_cons_self⟩
    exact this

/-- C111: `2 * f + g` and `g + f * 2`. -/
example : (radd (rmul (exMu 1) (.num (.fin 2))) (.af (exMu 3))).eq (add (mul (exMu 1) (.num (.fin 2))) (.af (exMu 3))) = true ∧
    NoNan (radd (rmul (exMu 1) (.num (.fin 2))) (.af (exMu 3))) := by
  refine ⟨by decide, ?_⟩
  simp [radd, rmul, toAf, NoNan, exMu, const, Pv.isNan]

/-- C111: values: a `Mu` is its parameter `a`, a constant its parameter; only the exponent 2 is defined. -/
def exF (c : String) (f : List Char → Pv ℚ) (x : ℚ) : ℚ :=
  match c, (f "a".toList).norm, (f "constant_value".toList).norm with
  | "Mu", .num (.fin a), _ => a * x
  | "ConstantAcqFunc", _, .num (.fin v) => v
  | _, _, _ => 0

def exPw (p : Pv ℚ) (u : ℚ) : Option ℚ := if p.norm = .num (.fin 2) then some (u * u) else none

theorem same_norm {p q : Pv ℚ} (h : p.same q = true) : p.norm = q.norm := by
  simp only [Pv.same, Bool.and_eq_true, decide_eq_true_eq] at h
  exact h.1

example : (exMu 1).eq (exMu 1) = true ∧ (Af.sum (exMu 1) (exMu 2)).eq (.sum (exMu 2) (exMu 1)) = (Af.sum (exMu 2) (exMu 1)).eq (.sum (exMu 1) (exMu 2)) :=
  ⟨C111_equivalence.1 _ (by simp [exMu, NoNan, Pv.isNan]), C111_equivalence.2.1 _ _⟩

example : (Af.pow (.sum (exMu 1) (exMu 2)) (.num (.fin 2))).value exF exPw 5 = some 225 ∧
    (Af.pow (.sum (exMu 2) (exMu 1)) (.num (.fin 2))).value exF exPw 5 = some 225 := by
  have h : (Af.pow (.sum (exMu 1) (exMu 2)) (.num (.fin 2))).value exF exPw 5 = some 225 := by decide +kernel
  refine ⟨h, ?_⟩
  rw [← h]
  refine C111_equal_value exF exPw (fun c f g hfg => ?_) (fun p q hpq => ?_) _ _ (by decide) 5
  · funext x; simp only [exF, same_norm (hfg _)]
  · funext u; simp only [exPw, same_norm hpq]

/-- C111: `3 + f` and `f * 3`. -/
example : (radd (exMu 2) (.num (.fin 3))).value exF exPw 5 = some 13 ∧ (mul (exMu 2) (.num (.fin 3))).value exF exPw 5 = some 30 := by
  obtain ⟨-, h1, h2, -⟩ := C111_operators exF exPw (fun f v x hf => by simp [exF, hf, Pv.norm]; split <;> simp_all) (exMu 2) (by simp [exMu, NoNan, Pv.isNan]) 3 10 5 (by decide +kernel)
  exact ⟨h1.trans (by norm_num), h2.trans (by norm_num)⟩

/-- C111: the parameter `a` of `Mu`, and one it does not have. -/
example : ∃ a', (exMu 1).setOne "a".toList (.inl (.num (.fin 9))) = .ok a' ∧ ("fixed".toList, Sum.inl (.bool false)) ∈ a'.getParams := by
  obtain ⟨a', h, hp⟩ := C111_set_params (exMu 1) (by refine ⟨by decide, by decide⟩) "a".toList (.num (.fin 1)) (.num (.fin 9)) (by simp [exMu, Af.getParams])
  exact ⟨a', h, (hp _ _).mpr (.inr ⟨by decide, by simp [exMu, Af.getParams]⟩)⟩

example : ∃ e, (exMu 1).setOne "b".toList (.inl (.num (.fin 9))) = .error e := C111_unknown _ _ _ (by decide)

end GPry.AcqObj
