import Verif.KernelHyp
import Mathlib.Tactic.Ring
import Mathlib.Data.List.Forall2
import Mathlib.Tactic.Linarith
import Mathlib.Algebra.Order.Ring.Rat

set_option linter.all false

/-!
# Properties C99: hyperparameter vector and bounds of kernels
-/

namespace GPry.KernelHyp

variable {K : Type*} [Field K]

/-! ## Helpers -/

theorem mkHyper_again {name name' : Str} {b : Bnd K} {m : Option (List K)} {n : ℕ} {h : Hyper K} (hh : mkHyper name b m n = .ok h) :
    mkHyper name' h.bounds h.maxLen h.nElem = .ok { h with name := name' } := by
  unfold mkHyper at hh
  cases b with
  | fixed => cases hh; rfl
  | dynamic => cases hh; rfl
  | rows l =>
    simp only at hh
    by_cases hn : 1 < n
    · rw [if_pos hn] at hh
      split at hh
      · cases hh
        unfold mkHyper
        obtain ⟨j, rfl⟩ : ∃ j, n = j + 2 := ⟨n - 2, by omega⟩
        simp [List.replicate_succ]
      · rename_i hl
        split at hh
        · rename_i hlen
          cases hh
          unfold mkHyper
          simp only [if_pos hn]
          rcases l with _ | ⟨r, _ | ⟨r', l⟩⟩
          · simp at hlen; omega
          · exact absurd rfl (hl r)
          · simp only [hlen, if_true]
        · cases hh
    · rw [if_neg hn] at hh
      cases hh
      simp [mkHyper, hn]

/-- A hyperparameter created by `Hyperparameter.__new__`. -/
def Hyper.Made (h : Hyper K) : Prop := ∃ b m n, mkHyper h.name b m n = .ok h

theorem mkHyper_name {name : Str} {b : Bnd K} {m : Option (List K)} {n : ℕ} {h : Hyper K} (hh : mkHyper name b m n = .ok h) : h.name = name := by
  unfold mkHyper at hh
  cases b <;> simp only at hh
  · cases hh; rfl
  · cases hh; rfl
  · split at hh
    · split at hh
      · cases hh; rfl
      · split at hh
        · cases hh; rfl
        · cases hh
    · cases hh; rfl

theorem mkHyper_made {name : Str} {b : Bnd K} {m : Option (List K)} {n : ℕ} {h : Hyper K} (hh : mkHyper name b m n = .ok h) : h.Made :=
  ⟨b, m, n, by rw [mkHyper_name hh]; exact hh⟩

/-- The hyperparameter with a longer name. -/
def Hyper.pre (p : Str) (h : Hyper K) : Hyper K := { h with name := p ++ h.name }

theorem mapE_rename (p : Str) : ∀ (l : List (Hyper K)), (∀ h ∈ l, h.Made) → mapE (rename p) l = .ok (l.map (Hyper.pre p)) ∧ ∀ h ∈ l.map (Hyper.pre p), h.Made
  | [], _ => by simp [mapE]
  | h :: l, hm => by
    obtain ⟨b, m, n, hh⟩ := hm h (by simp)
    obtain ⟨h1, h2⟩ := mapE_rename p l fun h' hh' => hm h' (by simp [hh'])
    have e : rename p h = .ok (h.pre p) := mkHyper_again hh
    refine ⟨by simp [mapE, e, h1], ?_⟩
    intro h' hh'
    rw [List.map_cons, List.mem_cons] at hh'
    rcases hh' with rfl | hh'
    · exact ⟨h.bounds, h.maxLen, h.nElem, e⟩
    · exact h2 h' hh'

theorem mapE_one {α β : Type*} (f : α → Except Err β) (a : α) (l : List β) (h : mapE f [a] = .ok l) : ∃ b, f a = .ok b ∧ l = [b] := by
  unfold mapE at h
  cases hf : f a with
  | error e => rw [hf] at h; cases h
  | ok b => rw [hf] at h; simp only [mapE] at h; cases h; exact ⟨b, rfl, rfl⟩

theorem both_ok {α : Type*} {x y : Except Err (List α)} {l : List α} (h : both x y = .ok l) : ∃ a b, x = .ok a ∧ y = .ok b ∧ l = a ++ b := by
  cases x <;> cases y <;> simp only [both] at h <;> first | cases h; done | (cases h; exact ⟨_, _, rfl, rfl, rfl⟩)

theorem part_ok {p : Str} {x : Except Err (List (Hyper K))} {l : List (Hyper K)} (hx : ∀ l, x = .ok l → ∀ h ∈ l, h.Made) (h : part p x = .ok l) :
    ∃ l', x = .ok l' ∧ l = l'.map (Hyper.pre p) := by
  cases x with
  | error e => cases h
  | ok l' =>
    refine ⟨l', rfl, ?_⟩
    have := (mapE_rename p l' (hx l' rfl)).1
    simp only [part] at h
    rw [this] at h
    cases h; rfl

theorem hypers_made (k : Kern K) : ∀ l, k.hypers = .ok l → ∀ h ∈ l, h.Made := by
  have two : ∀ (a b : Kern K), (∀ l, a.hypers = .ok l → ∀ h ∈ l, h.Made) → (∀ l, b.hypers = .ok l → ∀ h ∈ l, h.Made) →
      ∀ l, both (part k1 a.hypers) (part k2 b.hypers) = .ok l → ∀ h ∈ l, h.Made := by
    intro a b ha hb l hl h hh
    obtain ⟨x, y, hx, hy, rfl⟩ := both_ok hl
    obtain ⟨x', hx', rfl⟩ := part_ok ha hx
    obtain ⟨y', hy', rfl⟩ := part_ok hb hy
    rcases List.mem_append.1 hh with hh | hh
    · exact (mapE_rename k1 x' (ha x' hx')).2 h hh
    · exact (mapE_rename k2 y' (hb y' hy')).2 h hh
  induction k with
  | const v b => intro l hl h hh; obtain ⟨x, hx, rfl⟩ := mapE_one _ _ _ hl; rcases List.mem_singleton.1 hh with rfl; exact mkHyper_made hx
  | white v b => intro l hl h hh; obtain ⟨x, hx, rfl⟩ := mapE_one _ _ _ hl; rcases List.mem_singleton.1 hh with rfl; exact mkHyper_made hx
  | len v b m => intro l hl h hh; obtain ⟨x, hx, rfl⟩ := mapE_one _ _ _ hl; rcases List.mem_singleton.1 hh with rfl; exact mkHyper_made hx
  | other => intro l hl; cases hl
  | sum a b ha hb => exact two a b ha hb
  | prod a b ha hb => exact two a b ha hb
  | pow a ha =>
    intro l hl h hh
    obtain ⟨x', hx', rfl⟩ := part_ok ha hl
    exact (mapE_rename kk x' (ha x' hx')).2 h hh

theorem part_eq (p : Str) {k : Kern K} {l : List (Hyper K)} (h : k.hypers = .ok l) : part p k.hypers = .ok (l.map (Hyper.pre p)) := by
  rw [h]; exact (mapE_rename p l (hypers_made k l h)).1

theorem find_map (p n : Str) (l : List (Str × Val K)) : find (p ++ n) (l.map fun q => (p ++ q.1, q.2)) = find n l := by
  induction l with
  | nil => rfl
  | cons q l ih => simp only [List.map_cons, find, List.append_cancel_left_eq, ih]

theorem find_append (n : Str) (l l' : List (Str × Val K)) : find n (l ++ l') = (find n l).or (find n l') := by
  induction l with
  | nil => simp [find]
  | cons q l ih => simp only [List.cons_append, find]; split <;> simp [ih]

theorem find_k1 (n : Str) (l : List (Str × Val K)) : find (k1 ++ n) (l.map fun q => (k2 ++ q.1, q.2)) = none := by
  induction l with
  | nil => rfl
  | cons q l ih =>
    have : k2 ++ q.1 ≠ k1 ++ n := by simp [k1, k2]
    simp only [List.map_cons, find, if_neg this, ih]

theorem find_k2 (n : Str) (l : List (Str × Val K)) : find (k2 ++ n) (l.map fun q => (k1 ++ q.1, q.2)) = none := by
  induction l with
  | nil => rfl
  | cons q l ih =>
    have : k1 ++ q.1 ≠ k2 ++ n := by simp [k1, k2]
    simp only [List.map_cons, find, if_neg this, ih]

/-- The parameters of a sum or product. -/
def ps2 (pa pb : List (Str × Val K)) : List (Str × Val K) := (pa.map fun q => (k1 ++ q.1, q.2)) ++ pb.map fun q => (k2 ++ q.1, q.2)

theorem find_ps2_k1 (pa pb : List (Str × Val K)) (n : Str) : find (k1 ++ n) (ps2 pa pb) = find n pa := by
  rw [ps2, find_append, find_map, find_k1, Option.or_none]

theorem find_ps2_k2 (pa pb : List (Str × Val K)) (n : Str) : find (k2 ++ n) (ps2 pa pb) = find n pb := by
  rw [ps2, find_append, find_map, find_k2, Option.none_or]

theorem both_assoc {α : Type*} (x y z : Except Err (List α)) : both (both x y) z = both x (both y z) := by
  cases x <;> cases y <;> cases z <;> simp [both]

theorem both_nil {α : Type*} (x : Except Err (List α)) : both (.ok []) x = x := by
  cases x <;> simp [both]

theorem boundsGo_append (ps : List (Str × Val K)) (l l' : List (Hyper K)) : boundsGo ps (l ++ l') = both (boundsGo ps l) (boundsGo ps l') := by
  induction l with
  | nil => simp [boundsGo, both_nil]
  | cons h l ih =>
    simp only [List.cons_append, boundsGo]
    cases find h.name ps with
    | none => simp [both]
    | some v => simp only [ih, both_assoc]

theorem thetaGo_append (ps : List (Str × Val K)) (l l' : List (Hyper K)) : thetaGo ps (l ++ l') = both (thetaGo ps l) (thetaGo ps l') := by
  induction l with
  | nil => simp [thetaGo, both_nil]
  | cons h l ih =>
    simp only [List.cons_append, thetaGo]
    split
    · exact ih
    · cases find h.name ps with
      | none => simp [both]
      | some v => simp only [ih, both_assoc]

theorem boundsGo_pre (p : Str) (ps ps' : List (Str × Val K)) (hf : ∀ n, find (p ++ n) ps' = find n ps) (l : List (Hyper K)) :
    boundsGo ps' (l.map (Hyper.pre p)) = boundsGo ps l := by
  induction l with
  | nil => rfl
  | cons h l ih =>
    have e : find (h.pre p).name ps' = find h.name ps := hf h.name
    simp only [List.map_cons, boundsGo, e, ih]
    rfl

theorem thetaGo_pre (p : Str) (ps ps' : List (Str × Val K)) (hf : ∀ n, find (p ++ n) ps' = find n ps) (l : List (Hyper K)) :
    thetaGo ps' (l.map (Hyper.pre p)) = thetaGo ps l := by
  induction l with
  | nil => rfl
  | cons h l ih =>
    have e : find (h.pre p).name ps' = find h.name ps := hf h.name
    simp only [List.map_cons, thetaGo, e, ih]
    rfl

/-! ## Compound kernels -/

theorem hypers_sum {a b : Kern K} {ha hb : List (Hyper K)} (h1 : a.hypers = .ok ha) (h2 : b.hypers = .ok hb) :
    (Kern.sum a b).hypers = .ok (ha.map (Hyper.pre k1) ++ hb.map (Hyper.pre k2)) := by
  simp only [Kern.hypers, part_eq _ h1, part_eq _ h2, both]

theorem bounds_sum {a b : Kern K} {ha hb : List (Hyper K)} (h1 : a.hypers = .ok ha) (h2 : b.hypers = .ok hb) :
    (Kern.sum a b).bounds = both a.bounds b.bounds := by
  simp only [Kern.bounds, hypers_sum h1 h2, h1, h2, boundsGo_append]
  rw [show (Kern.sum a b).params = ps2 a.params b.params from rfl, boundsGo_pre k1 a.params _ (find_ps2_k1 _ _),
    boundsGo_pre k2 b.params _ (find_ps2_k2 _ _)]

theorem theta_sum {a b : Kern K} {ha hb : List (Hyper K)} (h1 : a.hypers = .ok ha) (h2 : b.hypers = .ok hb) :
    (Kern.sum a b).theta = both a.theta b.theta := by
  simp only [Kern.theta, hypers_sum h1 h2, h1, h2, thetaGo_append]
  rw [show (Kern.sum a b).params = ps2 a.params b.params from rfl, thetaGo_pre k1 a.params _ (find_ps2_k1 _ _),
    thetaGo_pre k2 b.params _ (find_ps2_k2 _ _)]

theorem hypers_prod (a b : Kern K) : (Kern.prod a b).hypers = (Kern.sum a b).hypers := rfl
theorem bounds_prod (a b : Kern K) : (Kern.prod a b).bounds = (Kern.sum a b).bounds := rfl
theorem theta_prod (a b : Kern K) : (Kern.prod a b).theta = (Kern.sum a b).theta := rfl

theorem hypers_pow {a : Kern K} {ha : List (Hyper K)} (h1 : a.hypers = .ok ha) : (Kern.pow a).hypers = .ok (ha.map (Hyper.pre kk)) := by
  simp only [Kern.hypers, part_eq _ h1]

theorem bounds_pow {a : Kern K} {ha : List (Hyper K)} (h1 : a.hypers = .ok ha) : (Kern.pow a).bounds = a.bounds := by
  simp only [Kern.bounds, hypers_pow h1, h1]
  exact boundsGo_pre kk _ _ (fun n => find_map kk n _) _

theorem theta_pow {a : Kern K} {ha : List (Hyper K)} (h1 : a.hypers = .ok ha) : (Kern.pow a).theta = a.theta := by
  simp only [Kern.theta, hypers_pow h1, h1]
  exact thetaGo_pre kk _ _ (fun n => find_map kk n _) _

/-! ## Setting `theta` -/

/-- Number of elements of `theta` used by the setter. -/
def need : List (Hyper K) → ℕ
  | [] => 0
  | h :: l => (if h.fixed then 0 else if 1 < h.nElem then h.nElem else 1) + need l

theorem need_append (l l' : List (Hyper K)) : need (l ++ l') = need l + need l' := by
  induction l with
  | nil => simp [need]
  | cons h l ih => simp only [List.cons_append, need, ih]; omega

theorem need_pre (p : Str) (l : List (Hyper K)) : need (l.map (Hyper.pre p)) = need l := by
  induction l with
  | nil => rfl
  | cons h l ih => simp only [List.map_cons, need, ih]; rfl

/-- Success exactly for the right number of values. -/
theorem assign_ok (l : List (Hyper K)) : ∀ th : List K, (∃ r, assign l th = .ok r) ↔ th.length = need l := by
  induction l with
  | nil => intro th; cases th <;> simp [assign, need]
  | cons h l ih =>
    intro th
    simp only [assign, need]
    by_cases hf : h.fixed
    · simp only [hf, if_true, ih th, Nat.zero_add]
    · simp only [hf, Bool.false_eq_true, if_false]
      by_cases hn : 1 < h.nElem
      · simp only [hn, if_true]
        by_cases hl : th.length < h.nElem
        · simp only [hl, if_true]
          constructor
          · rintro ⟨r, h⟩; cases h
          · intro h; omega
        · simp only [hl, if_false]
          have := ih (th.drop h.nElem)
          rw [List.length_drop] at this
          cases hr : assign l (th.drop h.nElem) with
          | error e =>
            rw [hr] at this
            constructor
            · rintro ⟨r, h⟩; cases h
            · intro h'
              obtain ⟨r, h⟩ := this.2 (by omega)
              cases h
          | ok r =>
            have := this.1 ⟨r, hr⟩
            exact ⟨fun _ => by omega, fun _ => ⟨_, rfl⟩⟩
      · simp only [hn, if_false]
        cases th with
        | nil =>
          constructor
          · rintro ⟨r, h⟩; cases h
          · intro h; simp at h; omega
        | cons t th =>
          have := ih th
          simp only
          cases hr : assign l th with
          | error e =>
            rw [hr] at this
            constructor
            · rintro ⟨r, h⟩; cases h
            · intro h'
              obtain ⟨r, h⟩ := this.2 (by simp at h'; omega)
              cases h
          | ok r =>
            have := this.1 ⟨r, hr⟩
            exact ⟨fun _ => by simp; omega, fun _ => ⟨_, rfl⟩⟩

theorem assign_append (l l' : List (Hyper K)) : ∀ (t t' : List K) (r r' : List (Str × Val K)), assign l t = .ok r → assign l' t' = .ok r' →
    assign (l ++ l') (t ++ t') = .ok (r ++ r') := by
  induction l with
  | nil =>
    intro t t' r r' h h'
    cases t with
    | nil => cases h; simpa using h'
    | cons => cases h
  | cons h l ih =>
    intro t t' r r' h1 h2
    simp only [List.cons_append, assign] at h1 ⊢
    by_cases hf : h.fixed
    · simp only [hf, if_true] at h1 ⊢
      exact ih t t' r r' h1 h2
    · simp only [hf, Bool.false_eq_true, if_false] at h1 ⊢
      by_cases hn : 1 < h.nElem
      · simp only [hn, if_true] at h1 ⊢
        by_cases hl : t.length < h.nElem
        · simp only [hl, if_true] at h1; cases h1
        · simp only [hl, if_false] at h1
          have hl' : ¬ (t ++ t').length < h.nElem := by simp; omega
          simp only [hl', if_false]
          rw [List.drop_append_of_le_length (by omega), List.take_append_of_le_length (by omega)]
          cases hr : assign l (t.drop h.nElem) with
          | error e => rw [hr] at h1; cases h1
          | ok r0 =>
            rw [hr] at h1; cases h1
            rw [ih _ _ _ _ hr h2]; rfl
      · simp only [hn, if_false] at h1 ⊢
        cases t with
        | nil => cases h1
        | cons x t =>
          simp only [List.cons_append] at h1 ⊢
          cases hr : assign l t with
          | error e => rw [hr] at h1; cases h1
          | ok r0 =>
            rw [hr] at h1; cases h1
            rw [ih _ _ _ _ hr h2]; rfl

theorem assign_pre (p : Str) (l : List (Hyper K)) : ∀ (t : List K) (r : List (Str × Val K)), assign l t = .ok r →
    assign (l.map (Hyper.pre p)) t = .ok (r.map fun q => (p ++ q.1, q.2)) := by
  induction l with
  | nil => intro t r h; cases t with
    | nil => cases h; rfl
    | cons => cases h
  | cons h l ih =>
    intro t r h1
    simp only [List.map_cons, assign, show (h.pre p).fixed = h.fixed from rfl, show (h.pre p).nElem = h.nElem from rfl] at h1 ⊢
    by_cases hf : h.fixed
    · simp only [hf, if_true] at h1 ⊢
      exact ih t r h1
    · simp only [hf, Bool.false_eq_true, if_false] at h1 ⊢
      by_cases hn : 1 < h.nElem
      · simp only [hn, if_true] at h1 ⊢
        by_cases hl : t.length < h.nElem
        · simp only [hl, if_true] at h1; cases h1
        · simp only [hl, if_false] at h1 ⊢
          cases hr : assign l (t.drop h.nElem) with
          | error e => rw [hr] at h1; cases h1
          | ok r0 => rw [hr] at h1; cases h1; rw [ih _ _ hr]; rfl
      · simp only [hn, if_false] at h1 ⊢
        cases t with
        | nil => cases h1
        | cons x t =>
          simp only at h1 ⊢
          cases hr : assign l t with
          | error e => rw [hr] at h1; cases h1
          | ok r0 => rw [hr] at h1; cases h1; rw [ih _ _ hr]; rfl

theorem strip_append (p n : Str) : strip p (p ++ n) = some n := by
  induction p with
  | nil => rfl
  | cons c p ih => simp [strip, ih]

theorem strip_k1_k2 (n : Str) : strip k1 (k2 ++ n) = none := by simp [k1, k2, strip]

theorem foldl_sum_k1 (r : List (Str × Val K)) : ∀ (a b : Kern K),
    (r.map fun q => (k1 ++ q.1, q.2)).foldl Kern.setParam (.sum a b) = .sum (r.foldl Kern.setParam a) b := by
  induction r with
  | nil => intros; rfl
  | cons q r ih => intro a b; simp only [List.map_cons, List.foldl_cons, Kern.setParam, strip_append]; exact ih _ _

theorem foldl_sum_k2 (r : List (Str × Val K)) : ∀ (a b : Kern K),
    (r.map fun q => (k2 ++ q.1, q.2)).foldl Kern.setParam (.sum a b) = .sum a (r.foldl Kern.setParam b) := by
  induction r with
  | nil => intros; rfl
  | cons q r ih => intro a b; simp only [List.map_cons, List.foldl_cons, Kern.setParam, strip_append, strip_k1_k2]; exact ih _ _

theorem foldl_prod_k1 (r : List (Str × Val K)) : ∀ (a b : Kern K),
    (r.map fun q => (k1 ++ q.1, q.2)).foldl Kern.setParam (.prod a b) = .prod (r.foldl Kern.setParam a) b := by
  induction r with
  | nil => intros; rfl
  | cons q r ih => intro a b; simp only [List.map_cons, List.foldl_cons, Kern.setParam, strip_append]; exact ih _ _

theorem foldl_prod_k2 (r : List (Str × Val K)) : ∀ (a b : Kern K),
    (r.map fun q => (k2 ++ q.1, q.2)).foldl Kern.setParam (.prod a b) = .prod a (r.foldl Kern.setParam b) := by
  induction r with
  | nil => intros; rfl
  | cons q r ih => intro a b; simp only [List.map_cons, List.foldl_cons, Kern.setParam, strip_append, strip_k1_k2]; exact ih _ _

theorem foldl_pow (r : List (Str × Val K)) : ∀ (a : Kern K),
    (r.map fun q => (kk ++ q.1, q.2)).foldl Kern.setParam (.pow a) = .pow (r.foldl Kern.setParam a) := by
  induction r with
  | nil => intros; rfl
  | cons q r ih => intro a; simp only [List.map_cons, List.foldl_cons, Kern.setParam, strip_append]; exact ih _

theorem setTheta_ok {k k' : Kern K} {th : List K} (h : k.setTheta th = .ok k') :
    ∃ hs r, k.hypers = .ok hs ∧ assign hs th = .ok r ∧ k' = r.foldl Kern.setParam k := by
  unfold Kern.setTheta at h
  cases hk : k.hypers with
  | error e => rw [hk] at h; cases h
  | ok hs =>
    rw [hk] at h; simp only at h
    cases ha : assign hs th with
    | error e => rw [ha] at h; cases h
    | ok r => rw [ha] at h; cases h; exact ⟨hs, r, rfl, ha, rfl⟩

theorem setTheta_sum {a b a' b' : Kern K} {t t' : List K} (h1 : a.setTheta t = .ok a') (h2 : b.setTheta t' = .ok b') :
    (Kern.sum a b).setTheta (t ++ t') = .ok (.sum a' b') := by
  obtain ⟨ha, ra, e1, e2, rfl⟩ := setTheta_ok h1
  obtain ⟨hb, rb, e3, e4, rfl⟩ := setTheta_ok h2
  unfold Kern.setTheta
  simp only [hypers_sum e1 e3, assign_append _ _ _ _ _ _ (assign_pre k1 _ _ _ e2) (assign_pre k2 _ _ _ e4), List.foldl_append, foldl_sum_k1, foldl_sum_k2]

theorem setTheta_prod {a b a' b' : Kern K} {t t' : List K} (h1 : a.setTheta t = .ok a') (h2 : b.setTheta t' = .ok b') :
    (Kern.prod a b).setTheta (t ++ t') = .ok (.prod a' b') := by
  obtain ⟨ha, ra, e1, e2, rfl⟩ := setTheta_ok h1
  obtain ⟨hb, rb, e3, e4, rfl⟩ := setTheta_ok h2
  unfold Kern.setTheta
  simp only [hypers_prod, hypers_sum e1 e3, assign_append _ _ _ _ _ _ (assign_pre k1 _ _ _ e2) (assign_pre k2 _ _ _ e4), List.foldl_append, foldl_prod_k1, foldl_prod_k2]

theorem setTheta_pow {a a' : Kern K} {t : List K} (h1 : a.setTheta t = .ok a') : (Kern.pow a).setTheta t = .ok (.pow a') := by
  obtain ⟨ha, ra, e1, e2, rfl⟩ := setTheta_ok h1
  unfold Kern.setTheta
  simp only [hypers_pow e1, assign_pre kk _ _ _ e2, foldl_pow]

/-! ## C99 -/

/-- Kernels made of constant, white noise, RBF and Matern kernels, each with one value and one pair of limits (or "fixed"), or, for
length scales, with one value and one pair of limits per dimension, or "dynamic" with a prior of at least that many dimensions. -/
def Kern.Ok : Kern K → Prop
  | .const v b | .white v b => v.flat.length = 1 ∧ (b = .fixed ∨ ∃ r, b = .rows [r])
  | .len v b m => v ≠ .vec [] ∧ (b = .fixed ∨ (∃ r, b = .rows [r]) ∨ (∃ l, b = .rows l ∧ l.length = v.flat.length) ∨
      b = .dynamic ∧ ∃ w, m = some w ∧ v.flat.length ≤ w.length)
  | .other => False
  | .sum a b | .prod a b => a.Ok ∧ b.Ok
  | .pow a => a.Ok

/-- The elementary kernels, from left to right: value, bounds, `max_length`. -/
def Kern.leaves : Kern K → List (Val K × Bnd K × Option (List K))
  | .const v b | .white v b => [(v, b, none)]
  | .len v b m => [(v, b, m)]
  | .other => []
  | .sum a b | .prod a b => a.leaves ++ b.leaves
  | .pow a => a.leaves

/-- The free values of an elementary kernel. -/
def freeVals (l : Val K × Bnd K × Option (List K)) : List K :=
  match l.2.1 with
  | .fixed => []
  | _ => l.1.flat

/-- The documented limits of an elementary kernel: one pair for each value; with "dynamic", from a thousandth to a hundred times the
width of the prior of that dimension. -/
def Limits (l : Val K × Bnd K × Option (List K)) (rows : List (K × K)) : Prop :=
  match l.2.1 with
  | .fixed => rows = []
  | .rows [r] => rows = List.replicate l.1.flat.length r
  | .rows rs => rows = rs
  | .dynamic => ∃ w, l.2.2 = some w ∧ rows = (w.take l.1.flat.length).map fun m => (m / 1000, m * 100)

/-- Same structure, bounds and `max_length`; the values of "fixed" hyperparameters are the same. -/
def Kern.Like : Kern K → Kern K → Prop
  | .const v b, .const v' b' => b = b' ∧ (b = .fixed → v = v')
  | .white v b, .white v' b' => b = b' ∧ (b = .fixed → v = v')
  | .len v b m, .len v' b' m' => b = b' ∧ m = m' ∧ (b = .fixed → v = v')
  | .other, .other => True
  | .sum a b, .sum a' b' => a.Like a' ∧ b.Like b'
  | .prod a b, .prod a' b' => a.Like a' ∧ b.Like b'
  | .pow a, .pow a' => a.Like a'
  | _, _ => False

theorem mapE_range_dyn (w : List K) : ∀ n, n ≤ w.length →
    mapE (dynRow (some w)) (List.range n) = .ok ((w.take n).map fun m => (m / 1000, m * 100)) := by
  have app : ∀ {α β : Type _} (f : α → Except Err β) (l : List α) (a : α) (bs : List β) (b : β), mapE f l = .ok bs → f a = .ok b →
      mapE f (l ++ [a]) = .ok (bs ++ [b]) := by
    intro α β f l
    induction l with
    | nil => intro a bs b h h'; cases h; simp [mapE, h']
    | cons c l ih =>
      intro a bs b h h'
      simp only [List.cons_append, mapE] at h ⊢
      cases hc : f c with
      | error e => rw [hc] at h; cases h
      | ok x =>
        rw [hc] at h; simp only at h ⊢
        cases hl : mapE f l with
        | error e => rw [hl] at h; cases h
        | ok xs => rw [hl] at h; cases h; rw [ih a xs b hl h']; rfl
  intro n
  induction n with
  | zero => intro _; simp [mapE]
  | succ n ih =>
    intro hn
    rw [List.range_succ]
    have hw : w[n]? = some w[n] := List.getElem?_eq_getElem (by omega)
    have := app (dynRow (some w)) (List.range n) n _ (w[n] / 1000, w[n] * 100) (ih (by omega)) (by simp [dynRow, hw, div_eq_mul_inv])
    rw [this, List.take_add_one, hw, List.map_append]
    rfl

/-- One elementary kernel with hyperparameter name `n`. -/
theorem leaf_spec (n : Str) (v : Val K) (b : Bnd K) (m : Option (List K)) (hok : (Kern.len v b m).Ok) :
    ∃ h, mkHyper n b m v.nElem = .ok h ∧ h.name = n ∧ h.fixed = (match b with | .fixed => true | _ => false) ∧ h.nElem = v.nElem ∧
      ∃ rows, boundRows h v = .ok rows ∧ Limits (v, b, m) rows ∧ rows.length = (freeVals (v, b, m)).length ∧
        (∀ v' : Val K, v'.flat.length = v.flat.length → boundRows h v' = .ok rows) := by
  obtain ⟨hv, hb⟩ := hok
  have hpos : 0 < v.flat.length := by
    cases v with
    | scalar x => simp [Val.flat]
    | vec vs => cases vs with
      | nil => exact absurd rfl hv
      | cons a l => simp [Val.flat]
  have hne : v.nElem = v.flat.length := by
    cases v with
    | scalar x => rfl
    | vec vs => simp only [Val.nElem, Val.flat] at hpos ⊢; split <;> omega
  rcases hb with rfl | ⟨r, rfl⟩ | ⟨l, rfl, hl⟩ | ⟨rfl, w, rfl, hw⟩
  · exact ⟨⟨n, .fixed, m, v.nElem, true, false⟩, rfl, rfl, rfl, rfl, [], by simp [boundRows], by simp [Limits], by simp [freeVals], by simp [boundRows]⟩
  · refine ⟨⟨n, .rows (List.replicate v.flat.length r), m, v.nElem, false, false⟩, ?_, rfl, rfl, rfl, List.replicate v.flat.length r, by simp [boundRows],
      by simp [Limits], by simp [freeVals], by simp [boundRows]⟩
    simp only [mkHyper, hne]
    split
    · rfl
    · rw [show v.flat.length = 1 by omega]; rfl
  · refine ⟨⟨n, .rows l, m, v.nElem, false, false⟩, ?_, rfl, rfl, rfl, l, by simp [boundRows], ?_, by simp [freeVals, hl], by simp [boundRows]⟩
    · simp only [mkHyper, hne]
      split
      · match l, hl with
        | [], hl => simp at hl; omega
        | [r], hl => simp at hl; omega
        | _ :: _ :: _, hl => simp [hl]
      · rfl
    · match l, hl with
      | [], hl => rfl
      | [r], hl => simp only [List.length_singleton] at hl; simp [Limits, ← hl]
      | _ :: _ :: _, hl => rfl
  · have key : ∀ v' : Val K, v'.flat.length = v.flat.length →
        boundRows ⟨n, .dynamic, some w, v.nElem, false, true⟩ v' = .ok ((w.take v.flat.length).map fun m => (m / 1000, m * 100)) := by
      intro v' hv'
      cases v' with
      | scalar x =>
        have := mapE_range_dyn w 1 (by omega)
        have hv' : 1 = v.flat.length := hv'
        rw [← hv']
        exact this
      | vec vs =>
        have hv' : vs.length = v.flat.length := hv'
        have := mapE_range_dyn w vs.length (by omega)
        rw [← hv']
        exact this
    refine ⟨⟨n, .dynamic, some w, v.nElem, false, true⟩, rfl, rfl, rfl, rfl, _, key v rfl, ⟨w, rfl, rfl⟩, ?_, key⟩
    simp [freeVals]
    omega

/-- One elementary kernel: `theta`, `bounds`, and the effect of setting `theta`. -/
structure LeafSpec (k : Kern K) (mk : Val K → Kern K) (v : Val K) (b : Bnd K) (m : Option (List K)) : Prop where
  spec : ∃ hs rows, k.hypers = .ok hs ∧ k.theta = .ok (freeVals (v, b, m)) ∧ k.bounds = .ok rows ∧ Limits (v, b, m) rows ∧
    rows.length = (freeVals (v, b, m)).length ∧ need hs = (freeVals (v, b, m)).length ∧
    ∀ th : List K, th.length = (freeVals (v, b, m)).length → ∃ v', k.setTheta th = .ok (mk v') ∧ freeVals (v', b, m) = th ∧
      (b = .fixed → v' = v) ∧ v'.flat.length = v.flat.length

theorem leaf_len (n : Str) (mk : Val K → Kern K) (v : Val K) (b : Bnd K) (m : Option (List K)) (hok : (Kern.len v b m).Ok)
    (hh : (mk v).hypers = mapE (fun _ => mkHyper n b m v.nElem) [()]) (hp : (mk v).params = [(n, v)])
    (hs : ∀ v', (mk v).setParam (n, v') = mk v') : LeafSpec (mk v) mk v b m := by
  obtain ⟨h, h1, h2, h3, h4, rows, h5, h6, h7, h8⟩ := leaf_spec n v b m hok
  have hpos : v ≠ .vec [] := hok.1
  have e : (mk v).hypers = .ok [h] := by rw [hh]; simp [mapE, h1]
  have hne : (if 1 < v.nElem then v.nElem else 1) = v.flat.length := by
    cases v with
    | scalar x => rfl
    | vec vs => cases vs with
      | nil => exact absurd rfl hpos
      | cons a l =>
        cases l with
        | nil => rfl
        | cons c l => simp [Val.nElem, Val.flat]
  refine ⟨[h], rows, e, ?_, ?_, h6, h7, ?_, ?_⟩
  · simp only [Kern.theta, e, hp, thetaGo, find, h2, h3, if_true]
    cases b <;> simp [freeVals, both]
  · simp only [Kern.bounds, e, hp, boundsGo, find, h2, if_true, h5, both, List.append_nil]
  · simp only [need, h3, h4, hne]
    cases b <;> simp [freeVals]
  · intro th hth
    simp only [Kern.setTheta, e]
    cases b with
    | fixed =>
      have : th = [] := by simpa [freeVals] using hth
      subst this
      have h3' : h.fixed = true := h3
      refine ⟨v, by simp [assign, h3'], rfl, fun _ => rfl, rfl⟩
    | dynamic =>
      have h3' : h.fixed = false := h3
      have hth' : th.length = v.flat.length := hth
      simp only [assign, h3', h4, Bool.false_eq_true, if_false]
      by_cases hn : 1 < v.nElem
      · rw [if_pos hn] at hne ⊢
        rw [if_neg (by omega), List.drop_of_length_le (by omega), List.take_of_length_le (by omega)]
        exact ⟨.vec th, by simp [assign, h2, hs], rfl, by simp, by simpa [Val.flat] using hth'⟩
      · rw [if_neg hn] at hne ⊢
        obtain ⟨t, rfl⟩ : ∃ t, th = [t] := List.length_eq_one_iff.1 (by omega)
        exact ⟨.scalar t, by simp [assign, h2, hs], rfl, by simp, by simpa [Val.flat] using hne⟩
    | rows l =>
      have h3' : h.fixed = false := h3
      have hth' : th.length = v.flat.length := hth
      simp only [assign, h3', h4, Bool.false_eq_true, if_false]
      by_cases hn : 1 < v.nElem
      · rw [if_pos hn] at hne ⊢
        rw [if_neg (by omega), List.drop_of_length_le (by omega), List.take_of_length_le (by omega)]
        exact ⟨.vec th, by simp [assign, h2, hs], rfl, by simp, by simpa [Val.flat] using hth'⟩
      · rw [if_neg hn] at hne ⊢
        obtain ⟨t, rfl⟩ : ∃ t, th = [t] := List.length_eq_one_iff.1 (by omega)
        exact ⟨.scalar t, by simp [assign, h2, hs], rfl, by simp, by simpa [Val.flat] using hne⟩

theorem const_ok {v : Val K} {b : Bnd K} (h : (Kern.const v b).Ok) : (Kern.len v b none).Ok := by
  obtain ⟨hv, hb⟩ := h
  exact ⟨by rintro rfl; simp [Val.flat] at hv, by rcases hb with rfl | ⟨r, rfl⟩ <;> simp⟩

theorem nElem_one {v : Val K} (h : v.flat.length = 1) : v.nElem = 1 := by
  cases v with
  | scalar x => rfl
  | vec vs => have h : vs.length = 1 := h; simp [Val.nElem, h]

theorem leafSpec_const {v : Val K} {b : Bnd K} (h : (Kern.const v b).Ok) : LeafSpec (Kern.const v b) (fun v => .const v b) v b none :=
  leaf_len nConst (fun v => .const v b) v b none (const_ok h) (by rw [nElem_one h.1]; rfl) rfl (by simp [Kern.setParam])

theorem leafSpec_white {v : Val K} {b : Bnd K} (h : (Kern.white v b).Ok) : LeafSpec (Kern.white v b) (fun v => .white v b) v b none :=
  leaf_len nNoise (fun v => .white v b) v b none (const_ok h) (by rw [nElem_one h.1]; rfl) rfl (by simp [Kern.setParam])

theorem leafSpec_len {v : Val K} {b : Bnd K} {m : Option (List K)} (h : (Kern.len v b m).Ok) : LeafSpec (Kern.len v b m) (fun v => .len v b m) v b m :=
  leaf_len nLen (fun v => .len v b m) v b m h rfl rfl (by simp [Kern.setParam])

theorem len_ok_of {v v' : Val K} {b : Bnd K} {m : Option (List K)} (h : (Kern.len v b m).Ok) (hv : v'.flat.length = v.flat.length) : (Kern.len v' b m).Ok := by
  obtain ⟨h1, h2⟩ := h
  refine ⟨?_, ?_⟩
  · rintro rfl
    have : v.flat.length = 0 := hv.symm
    cases v with
    | scalar x => simp [Val.flat] at this
    | vec vs => cases vs with
      | nil => exact h1 rfl
      | cons => simp [Val.flat] at this
  · rw [hv]; exact h2

/-- **C99** (partial): for kernels built from constant, white noise, RBF and Matern kernels by sums, products and powers, `theta` lists
the values of all hyperparameters that are not fixed, from left to right, and `bounds` the limits of each of them in the same
order, one row for each element of `theta`. (What is missing: see the counterexamples; logarithms are not taken.) -/
theorem C99_theta_bounds_partial (k : Kern K) (hk : k.Ok) :
    ∃ (rows : List (List (K × K))), k.theta = .ok (k.leaves.map freeVals).flatten ∧ k.bounds = .ok rows.flatten ∧
      List.Forall₂ Limits k.leaves rows ∧ rows.flatten.length = (k.leaves.map freeVals).flatten.length := by
  suffices h : ∃ (rows : List (List (K × K))) (hs : List (Hyper K)), k.hypers = .ok hs ∧ k.theta = .ok (k.leaves.map freeVals).flatten ∧ k.bounds = .ok rows.flatten ∧
      List.Forall₂ Limits k.leaves rows ∧ rows.flatten.length = (k.leaves.map freeVals).flatten.length by
    obtain ⟨rows, hs, _, h⟩ := h
    exact ⟨rows, h⟩
  have leaf : ∀ (k : Kern K) (mk : Val K → Kern K) v b m, LeafSpec k mk v b m → k.leaves = [(v, b, m)] →
      ∃ (rows : List (List (K × K))) (hs : List (Hyper K)), k.hypers = .ok hs ∧ k.theta = .ok (k.leaves.map freeVals).flatten ∧ k.bounds = .ok rows.flatten ∧
      List.Forall₂ Limits k.leaves rows ∧ rows.flatten.length = (k.leaves.map freeVals).flatten.length := by
    intro k mk v b m ⟨hs, rows, h1, h2, h3, h4, h5, h6, _⟩ hl
    refine ⟨[rows], hs, h1, ?_, ?_, ?_, ?_⟩
    · rw [hl]; simpa using h2
    · simpa using h3
    · rw [hl]; simpa using h4
    · rw [hl]; simpa using h5
  induction k with
  | const v b => exact leaf _ _ v b none (leafSpec_const hk) rfl
  | white v b => exact leaf _ _ v b none (leafSpec_white hk) rfl
  | len v b m => exact leaf _ _ v b m (leafSpec_len hk) rfl
  | other => exact absurd hk id
  | sum a b iha ihb =>
    obtain ⟨ra, ha, a1, a2, a3, a4, a5⟩ := iha hk.1
    obtain ⟨rb, hb, b1, b2, b3, b4, b5⟩ := ihb hk.2
    refine ⟨ra ++ rb, _, hypers_sum a1 b1, ?_, ?_, List.rel_append a4 b4, ?_⟩
    · rw [theta_sum a1 b1, a2, b2]; simp [both, Kern.leaves]
    · rw [bounds_sum a1 b1, a3, b3]; simp [both]
    · simp only [List.flatten_append, List.length_append, Kern.leaves, List.map_append, a5, b5]
  | prod a b iha ihb =>
    obtain ⟨ra, ha, a1, a2, a3, a4, a5⟩ := iha hk.1
    obtain ⟨rb, hb, b1, b2, b3, b4, b5⟩ := ihb hk.2
    refine ⟨ra ++ rb, _, hypers_sum a1 b1, ?_, ?_, List.rel_append a4 b4, ?_⟩
    · rw [theta_prod, theta_sum a1 b1, a2, b2]; simp [both, Kern.leaves]
    · rw [bounds_prod, bounds_sum a1 b1, a3, b3]; simp [both]
    · simp only [List.flatten_append, List.length_append, Kern.leaves, List.map_append, a5, b5]
  | pow a iha =>
    obtain ⟨ra, ha, a1, a2, a3, a4, a5⟩ := iha hk
    exact ⟨ra, _, hypers_pow a1, by rw [theta_pow a1, a2]; rfl, by rw [bounds_pow a1, a3], a4, a5⟩

/-- **C99** (partial): setting `theta` to a vector of the right length works, reading it gives the vector that was set, the bounds and
the values of fixed hyperparameters do not change. A vector of another length is refused. -/
theorem C99_set_theta_partial (k : Kern K) (hk : k.Ok) (th : List K) :
    (th.length = (k.leaves.map freeVals).flatten.length →
      ∃ k', k.setTheta th = .ok k' ∧ k'.theta = .ok th ∧ k'.bounds = k.bounds ∧ k.Like k' ∧ k'.Ok) ∧
    (th.length ≠ (k.leaves.map freeVals).flatten.length → ∃ e, k.setTheta th = .error e) := by
  suffices h : ∃ (hs : List (Hyper K)), k.hypers = .ok hs ∧ need hs = (k.leaves.map freeVals).flatten.length ∧
      ∀ th : List K, th.length = (k.leaves.map freeVals).flatten.length →
      ∃ k' hs', k.setTheta th = .ok k' ∧ k'.hypers = .ok hs' ∧ k'.theta = .ok th ∧ k'.bounds = k.bounds ∧ k.Like k' ∧ k'.Ok by
    obtain ⟨hs, h1, h2, h3⟩ := h
    refine ⟨fun h => ?_, fun h => ?_⟩
    · obtain ⟨k', _, e1, _, e2⟩ := h3 th h
      exact ⟨k', e1, e2⟩
    · unfold Kern.setTheta
      rw [h1]
      simp only
      cases ha : assign hs th with
      | error e => exact ⟨e, rfl⟩
      | ok r => exact absurd ((assign_ok hs th).1 ⟨r, ha⟩) (by omega)
  have dyn : ∀ (v v' : Val K) (b : Bnd K) (m : Option (List K)) (k k' : Kern K) mk mk', LeafSpec k mk v b m → LeafSpec k' mk' v' b m →
      v'.flat.length = v.flat.length → k'.bounds = k.bounds := by
    intro v v' b m k k' mk mk' H H' hv
    obtain ⟨hs, rows, _, _, h3, h4, _⟩ := H.spec
    obtain ⟨hs', rows', _, _, h3', h4', _⟩ := H'.spec
    clear H H'
    rw [h3, h3']
    have : rows' = rows := by
      clear h3 h3'
      cases b with
      | fixed => exact Eq.trans h4' (Eq.symm h4)
      | dynamic =>
        obtain ⟨w, hw, h4⟩ := h4
        obtain ⟨w', hw', h4'⟩ := h4'
        have : w = w' := by rw [show m = some w from hw] at hw'; exact Option.some.inj hw'
        rw [h4, h4', this]
        simp only [hv]
      | rows l =>
        rcases l with _ | ⟨r, _ | ⟨r', l⟩⟩
        · exact Eq.trans h4' (Eq.symm h4)
        · have e1 : rows = List.replicate v.flat.length r := h4
          have e2 : rows' = List.replicate v'.flat.length r := h4'
          rw [e1, e2, hv]
        · exact Eq.trans h4' (Eq.symm h4)
    rw [this]
  have leaf : ∀ (mk : Val K → Kern K) v b m, (∀ v, (mk v).Ok → LeafSpec (mk v) mk v b m) → (mk v).leaves = [(v, b, m)] →
      (mk v).Ok → (∀ v', v'.flat.length = v.flat.length → (mk v').Ok) → (∀ v', (b = .fixed → v' = v) → (mk v).Like (mk v')) →
      ∃ (hs : List (Hyper K)), (mk v).hypers = .ok hs ∧ need hs = ((mk v).leaves.map freeVals).flatten.length ∧
      ∀ th : List K, th.length = ((mk v).leaves.map freeVals).flatten.length →
      ∃ k' hs', (mk v).setTheta th = .ok k' ∧ k'.hypers = .ok hs' ∧ k'.theta = .ok th ∧ k'.bounds = (mk v).bounds ∧ (mk v).Like k' ∧ k'.Ok := by
    intro mk v b m hL hl hok hok' hlike
    have H := hL v hok
    obtain ⟨hs, rows, h1, h2, h3, h4, h5, h6, h7⟩ := H.spec
    refine ⟨hs, h1, by rw [hl]; simpa using h6, ?_⟩
    intro th hth
    obtain ⟨v', e1, e2, e3, e4⟩ := h7 th (by rw [hl] at hth; simpa using hth)
    have H' := hL v' (hok' v' e4)
    obtain ⟨hs', _, g1, g2, _⟩ := H'.spec
    exact ⟨mk v', hs', e1, g1, by rw [g2, e2], dyn _ _ b m _ _ mk mk H H' e4, hlike v' e3, hok' v' e4⟩
  have split2 : ∀ (th : List K) (n m : ℕ), th.length = n + m → ∃ t t', th = t ++ t' ∧ t.length = n ∧ t'.length = m := by
    intro th n m h
    exact ⟨th.take n, th.drop n, by simp, by simp; omega, by simp; omega⟩
  clear th
  induction k with
  | const v b => exact leaf (fun v => .const v b) v b none (fun v h => leafSpec_const h) rfl hk (fun v' h => ⟨h.trans hk.1, hk.2⟩) (fun v' h => ⟨rfl, fun hb => (h hb).symm⟩)
  | white v b => exact leaf (fun v => .white v b) v b none (fun v h => leafSpec_white h) rfl hk (fun v' h => ⟨h.trans hk.1, hk.2⟩) (fun v' h => ⟨rfl, fun hb => (h hb).symm⟩)
  | len v b m => exact leaf (fun v => .len v b m) v b m (fun v h => leafSpec_len h) rfl hk (fun v' h => len_ok_of hk h) (fun v' h => ⟨rfl, rfl, fun hb => (h hb).symm⟩)
  | other => exact absurd hk id
  | sum a b iha ihb =>
    obtain ⟨ha, a1, a2, a3⟩ := iha hk.1
    obtain ⟨hb, b1, b2, b3⟩ := ihb hk.2
    refine ⟨_, hypers_sum a1 b1, by simp [need_append, need_pre, a2, b2, Kern.leaves], ?_⟩
    intro th hth
    obtain ⟨t, t', rfl, ht, ht'⟩ := split2 th _ _ (by simpa only [Kern.leaves, List.map_append, List.flatten_append, List.length_append] using hth)
    obtain ⟨a', ha', e1, e2, e3, e4, e5, e6⟩ := a3 t ht
    obtain ⟨b', hb', f1, f2, f3, f4, f5, f6⟩ := b3 t' ht'
    exact ⟨.sum a' b', _, setTheta_sum e1 f1, hypers_sum e2 f2, by rw [theta_sum e2 f2, e3, f3]; rfl,
      by rw [bounds_sum e2 f2, bounds_sum a1 b1, e4, f4], ⟨e5, f5⟩, e6, f6⟩
  | prod a b iha ihb =>
    obtain ⟨ha, a1, a2, a3⟩ := iha hk.1
    obtain ⟨hb, b1, b2, b3⟩ := ihb hk.2
    refine ⟨_, hypers_sum a1 b1, by simp [need_append, need_pre, a2, b2, Kern.leaves], ?_⟩
    intro th hth
    obtain ⟨t, t', rfl, ht, ht'⟩ := split2 th _ _ (by simpa only [Kern.leaves, List.map_append, List.flatten_append, List.length_append] using hth)
    obtain ⟨a', ha', e1, e2, e3, e4, e5, e6⟩ := a3 t ht
    obtain ⟨b', hb', f1, f2, f3, f4, f5, f6⟩ := b3 t' ht'
    exact ⟨.prod a' b', _, setTheta_prod e1 f1, hypers_sum e2 f2, by rw [theta_prod, theta_sum e2 f2, e3, f3]; rfl,
      by rw [bounds_prod, bounds_sum e2 f2, bounds_prod, bounds_sum a1 b1, e4, f4], ⟨e5, f5⟩, e6, f6⟩
  | pow a iha =>
    obtain ⟨ha, a1, a2, a3⟩ := iha hk
    refine ⟨_, hypers_pow a1, by rw [need_pre, a2]; rfl, ?_⟩
    intro th hth
    obtain ⟨a', ha', e1, e2, e3, e4, e5, e6⟩ := a3 th hth
    exact ⟨.pow a', _, setTheta_pow e1, hypers_pow e2, by rw [theta_pow e2, e3], by rw [bounds_pow e2, bounds_pow a1, e4], e5, e6⟩

/-- C99: example: `ConstantKernel(1, (1e-2, 1e2)) * RBF([1, 2], "dynamic", prior [0, 1] × [0, 4]) + WhiteKernel(1, "fixed")`. -/
def exK : Kern ℚ := .sum (.prod (.const (.scalar 1) (.rows [(1 / 100, 100)])) (.len (.vec [1, 2]) .dynamic (some [1, 4]))) (.white (.scalar 1) .fixed)

example : exK.Ok := by
  refine ⟨⟨⟨rfl, Or.inr ⟨_, rfl⟩⟩, ⟨by simp, ?_⟩⟩, rfl, Or.inl rfl⟩
  exact Or.inr (Or.inr (Or.inr ⟨rfl, _, rfl, by simp [Val.flat]⟩))

example : exK.theta = .ok [1, 1, 2] ∧ exK.bounds = .ok [(1 / 100, 100), (1 / 1000, 100), (1 / 250, 400)] := by decide +kernel

/-- The length scale of an isotropic kernel. -/
theorem isotropic_first (l w : K) (ws : List K) : (Kern.len (.scalar l) .dynamic (some (w :: ws))).bounds = .ok [(w / 1000, w * 100)] := by
  simp [Kern.bounds, Kern.hypers, mapE, mkHyper, Kern.params, boundsGo, find, boundRows, dynRow, both, div_eq_mul_inv]

/-- **C99** is false for "dynamic" bounds of an isotropic kernel: documented (and announced in a warning) is that the largest dimension
of the prior is used; the code uses the first one. -/
theorem C99_isotropic_counterexample (l : K) (a b : K × K) (rest : List (K × K)) :
    ∃ k, mkLen (.scalar l) .dynamic (some (a :: b :: rest)) = .ok k ∧ k.bounds = .ok [((a.2 - a.1) / 1000, (a.2 - a.1) * 100)] :=
  ⟨_, rfl, isotropic_first l _ _⟩

/-- **C99** is false for "dynamic" bounds of constant and white noise kernels: `bounds` raises. -/
theorem C99_constant_counterexample (v : K) :
    (Kern.const (.scalar v) .dynamic).bounds = .error .typeError ∧ (Kern.white (.scalar v) .dynamic).bounds = .error .typeError := by
  constructor <;> simp [Kern.bounds, Kern.hypers, mapE, mkHyper, Kern.params, boundsGo, find, boundRows, dynRow, both]

/-- Whether a kernel contains `RationalQuadratic`, `ExpSineSquared` or `DotProduct`. -/
def Kern.HasOther : Kern K → Prop
  | .other => True
  | .sum a b | .prod a b => a.HasOther ∨ b.HasOther
  | .pow a => a.HasOther
  | _ => False

/-- **C99** is false for kernels containing `RationalQuadratic`, `ExpSineSquared` or `DotProduct`: neither `theta` nor `bounds` can be
read, nor `theta` set (so that they cannot be used in a regressor). -/
theorem C99_other_counterexample (k : Kern K) (hk : k.HasOther) :
    (∃ e, k.theta = .error e) ∧ (∃ e, k.bounds = .error e) ∧ ∀ th, ∃ e, k.setTheta th = .error e := by
  have two : ∀ x y : Except Err (List (Hyper K)), (∃ e, x = .error e) ∨ (∃ e, y = .error e) → ∃ e, both x y = .error e := by
    intro x y h
    cases x <;> cases y <;> simp [both] at h ⊢
  have main : ∃ e, k.hypers = .error e := by
    induction k with
    | const => exact absurd hk id
    | white => exact absurd hk id
    | len => exact absurd hk id
    | other => exact ⟨_, rfl⟩
    | sum a b iha ihb =>
      refine two _ _ ?_
      rcases hk with h | h
      · obtain ⟨e, h⟩ := iha h; exact Or.inl ⟨e, by rw [h]; rfl⟩
      · obtain ⟨e, h⟩ := ihb h; exact Or.inr ⟨e, by rw [h]; rfl⟩
    | prod a b iha ihb =>
      refine two _ _ ?_
      rcases hk with h | h
      · obtain ⟨e, h⟩ := iha h; exact Or.inl ⟨e, by rw [h]; rfl⟩
      · obtain ⟨e, h⟩ := ihb h; exact Or.inr ⟨e, by rw [h]; rfl⟩
    | pow a iha => obtain ⟨e, h⟩ := iha hk; exact ⟨e, by simp [Kern.hypers, h, part]⟩
  obtain ⟨e, he⟩ := main
  refine ⟨⟨e, by simp [Kern.theta, he]⟩, ⟨e, by simp [Kern.bounds, he]⟩, fun th => ⟨e, by simp [Kern.setTheta, he]⟩⟩

example : (Kern.prod (.const (.scalar (1 : ℚ)) .fixed) .other).HasOther := Or.inr trivial

/-- **C99**: the kernel built by the regressor for "RBF" or "Matern" has one output scale and one length scale per dimension, their
limits are the given priors (squared for the output scale), and the initial values are within. -/
theorem C99_default_kernel [LinearOrder K] [IsStrictOrderedRing K] (o0 o1 oInit l0 l1 lInit : K) (bounds : List (K × K)) (hb : bounds ≠ [])
    (ho : 0 < o0 ∧ o0 ≤ o1) (hl : 0 < l0 ∧ l0 ≤ l1) (hoi : 0 ≤ oInit ∧ oInit ^ 2 = o0 * o1) (hli : 0 ≤ lInit ∧ lInit ^ 2 = l0 * l1) :
    ∃ k, defaultKernel o0 o1 oInit l0 l1 lInit bounds = .ok k ∧ k.Ok ∧
      k.theta = .ok (oInit ^ 2 :: List.replicate bounds.length lInit) ∧
      k.bounds = .ok ((o0 ^ 2, o1 ^ 2) :: List.replicate bounds.length (l0, l1)) ∧
      (o0 ^ 2 ≤ oInit ^ 2 ∧ oInit ^ 2 ≤ o1 ^ 2) ∧ l0 ≤ lInit ∧ lInit ≤ l1 := by
  refine ⟨.prod (.const (.scalar (oInit ^ 2)) (.rows [(o0 ^ 2, o1 ^ 2)])) (.len (.vec (List.replicate bounds.length lInit)) (.rows [(l0, l1)]) none), rfl, ?_⟩
  have hok : (Kern.prod (.const (.scalar (oInit ^ 2)) (.rows [(o0 ^ 2, o1 ^ 2)])) (.len (.vec (List.replicate bounds.length lInit)) (.rows [(l0, l1)]) none)).Ok := by
    refine ⟨⟨rfl, Or.inr ⟨_, rfl⟩⟩, ?_, Or.inr (Or.inl ⟨_, rfl⟩)⟩
    intro h
    simp [hb] at h
  obtain ⟨rows, h1, h2, h3, h4⟩ := C99_theta_bounds_partial _ hok
  refine ⟨hok, by rw [h1]; simp [Kern.leaves, freeVals, Val.flat], ?_, ?_, ?_, ?_⟩
  · rw [h2]
    simp only [Kern.leaves, List.cons_append, List.nil_append, List.forall₂_cons_left_iff, List.forall₂_nil_left_iff, Limits, Val.flat] at h3
    obtain ⟨r1, l1', hr1, ⟨r2, l2, hr2, rfl, rfl⟩, rfl⟩ := h3
    subst hr1 hr2
    simp
  · rw [hoi.2]; constructor <;> nlinarith [ho.1, ho.2]
  · by_contra h
    push Not at h
    nlinarith [hl.1, hl.2, hli.1, hli.2]
  · by_contra h
    push Not at h
    nlinarith [hl.1, hl.2, hli.1, hli.2]

example : ∃ k, defaultKernel (1 / 10 : ℚ) 10 1 (1 / 4) 4 1 [(0, 1), (0, 2)] = .ok k ∧ k.theta = .ok [1, 1, 1] ∧ k.bounds = .ok [(1 / 100, 100), (1 / 4, 4), (1 / 4, 4)] := by
  refine ⟨_, rfl, ?_⟩
  decide +kernel

theorem exK_ok : exK.Ok := by
  refine ⟨⟨⟨rfl, Or.inr ⟨_, rfl⟩⟩, ⟨by simp, ?_⟩⟩, rfl, Or.inl rfl⟩
  exact Or.inr (Or.inr (Or.inr ⟨rfl, _, rfl, by simp [Val.flat]⟩))

example : exK.theta = .ok [1, 1, 2] := by
  obtain ⟨_, h, -⟩ := C99_theta_bounds_partial exK exK_ok
  rw [h]; decide +kernel

/-- Three free numbers: three may be set, two may not. -/
example : (∃ k', exK.setTheta [5, 6, 7] = .ok k' ∧ k'.theta = .ok [5, 6, 7]) ∧ ∃ e, exK.setTheta [5, 6] = .error e := by
  refine ⟨?_, (C99_set_theta_partial exK exK_ok [5, 6]).2 (by decide +kernel)⟩
  obtain ⟨k', h, h', -⟩ := (C99_set_theta_partial exK exK_ok [5, 6, 7]).1 (by decide +kernel)
  exact ⟨k', h, h'⟩

end GPry.KernelHyp
