import Verif.Pool
import Mathlib.Data.List.Perm.Subperm
import Mathlib.Data.List.Sort
import Mathlib.Order.Lattice

/-!
# Invariants of the ranked pool (lemmas for C22-C28, C74)
-/

set_option linter.all false

namespace GPry.Ranked

variable {P Y V : Type*} [LinearOrder V] [BoundedOrder V]

/-- A slot of the pool: entry and conditioned acquisition. -/
abbrev Slot (P Y V : Type*) := Ent P Y V × V

/-- Pool made of slots. -/
def ofSlots (sl : List (Slot P Y V)) (cache : List (Option (List (P × Y)))) : Pool P Y V :=
  ⟨sl.map (·.1.x), sl.map (·.1.y), sl.map (·.1.s), sl.map (fun t => some t.1.a), sl.map (fun t => some t.2), cache⟩

/-- Lies corresponding to slots. -/
def lies (sl : List (Slot P Y V)) : List (P × Y) := sl.map fun t => (t.1.x, t.1.y)

/-- Entries of the occupied slots. -/
def occ (sl : List (Slot P Y V)) : List (Ent P Y V) := (sl.filter fun t => decide (t.2 ≠ ⊥)).map Prod.fst

/-- Slots in non-increasing order. -/
def Desc (sl : List (Slot P Y V)) : Prop := sl.Pairwise fun a b => b.2 ≤ a.2

/-- Cached models belong to the current content, for occupied slots except the last two. -/
def FreshTo (m : ℕ) (sl : List (Slot P Y V)) (cache : List (Option (List (P × Y)))) : Prop :=
  ∀ j, j + 1 < m → ∀ t, sl[j]? = some t → t.2 ≠ ⊥ → cache.getD j none = some (lies (sl.take (j + 1)))

/-- `numpy.argsort(-v)` sorts. -/
def SortsDesc (g : List (Option V) → List ℕ) : Prop :=
  ∀ vs : List V, (g (vs.map some)).Perm (List.range vs.length) ∧
    ((g (vs.map some)).filterMap fun j => vs[j]?).Pairwise fun a b => b ≤ a

@[simp] theorem len_ofSlots (sl : List (Slot P Y V)) (cache) : (ofSlots sl cache).len = sl.length - 1 := by
  simp [Pool.len, ofSlots]

theorem pre_ofSlots (sl : List (Slot P Y V)) (cache) (i : ℕ) : (ofSlots sl cache).pre i = lies (sl.take i) := by
  simp only [Pool.pre, ofSlots, lies, List.zip_map', List.map_take]

theorem cacheModel_ofSlots (sl : List (Slot P Y V)) (cache) (i : ℕ) (hi : i ≠ 0) :
    (ofSlots sl cache).cacheModel i = ofSlots sl (cache.set (i - 1) (some (lies (sl.take i)))) := by
  simp only [Pool.cacheModel, if_neg hi, pre_ofSlots]
  rfl

theorem shift_map {α β : Type*} (g : α → β) (l : List α) (i : ℕ) (v : α) :
    shift (l.map g) i (g v) = (shift l i v).map g := by
  simp [shift, List.map_take, List.map_drop, List.map_dropLast]

theorem slice_map {α β : Type*} (g : α → β) (l : List α) (a b : ℕ) : slice (l.map g) a b = (slice l a b).map g := by
  simp [slice, List.map_take, List.map_drop]

theorem setSlice_map {α β : Type*} (g : α → β) (l : List α) (a b : ℕ) (n : List α) :
    setSlice (l.map g) a b (n.map g) = (setSlice l a b n).map g := by
  simp [setSlice, List.map_take, List.map_drop]

theorem findIdx_append_all {α : Type*} (q : α → Bool) (U O R : List α) (hU : ∀ u ∈ U, q u = false)
    (hO : ∀ u ∈ O, q u = false) (hR : ∀ u ∈ R, q u = true) : (U ++ O ++ R).findIdx q = U.length + O.length := by
  cases R with
  | nil =>
    rw [List.append_nil, List.findIdx_eq_length_of_false]
    · simp
    · intro x hx
      rcases List.mem_append.1 hx with h | h
      · exact hU x h
      · exact hO x h
  | cons r R =>
    have hlt : U.length + O.length < (U ++ O ++ r :: R).length := by simp
    rw [List.findIdx_eq hlt]
    constructor
    · have : (U ++ O ++ r :: R)[U.length + O.length] = r := by
        rw [List.getElem_append_right (by simp)]
        simp
      rw [this]; exact hR r List.mem_cons_self
    · intro j hj
      rw [List.getElem_append_left (by simpa using hj)]
      have : (U ++ O)[j]'(by simpa using hj) ∈ U ++ O := List.getElem_mem _
      rcases List.mem_append.1 this with h | h
      · exact hU _ h
      · exact hO _ h

theorem slice_mid {α : Type*} (U O R : List α) : slice (U ++ O ++ R) U.length (U.length + O.length) = O := by
  simp only [slice]
  rw [List.take_append_of_le_length (by simp), List.take_of_length_le (by simp)]
  simp

theorem setSlice_mid {α : Type*} (U O R N : List α) :
    setSlice (U ++ O ++ R) U.length (U.length + O.length) N = U ++ N ++ R := by
  simp only [setSlice]
  rw [List.append_assoc U O R, List.take_left', ← List.append_assoc, List.drop_left' (by simp)]
  rfl

theorem reorder_mid {α : Type*} (U O R : List α) (js : List ℕ) (hj : ∀ j ∈ js, j < O.length) :
    reorder (U ++ O ++ R) U.length (U.length + O.length) js = U ++ (js.filterMap fun j => O[j]?) ++ R := by
  simp only [reorder]
  rw [setSlice_mid]
  congr 2
  apply List.filterMap_congr
  intro j hj'
  have := hj j hj'
  rw [List.append_assoc, List.getElem?_append_right (by omega), List.getElem?_append_left (by omega)]
  simp

theorem reorder_slots {β : Type*} (W OO R mid : List (Slot P Y V)) (g : Slot P Y V → Slot P Y V) (js : List ℕ)
    (hg : ∀ t, (g t).1 = t.1) (hjlt : ∀ j ∈ js, j < OO.length)
    (hmid : mid = js.filterMap fun j => (OO.map g)[j]?) (q : Ent P Y V → β) :
    reorder ((W ++ OO ++ R).map fun t => q t.1) W.length (W.length + OO.length) js =
      (W ++ mid ++ R).map fun t => q t.1 := by
  have h := reorder_mid (W.map fun t => q t.1) (OO.map fun t => q t.1) (R.map fun t => q t.1) js
    (by simpa using hjlt)
  simp only [List.length_map] at h
  rw [List.map_append, List.map_append, h, List.map_append, List.map_append]
  congr 2
  rw [hmid, List.map_filterMap]
  apply List.filterMap_congr
  intro j _
  simp [List.getElem?_map, Option.map_map, Function.comp_def, hg]

/-- Sorted slots split into occupied ones and empty ones. -/
theorem desc_split (D : List (Slot P Y V)) (h : Desc D) :
    ∃ O R, D = O ++ R ∧ (∀ t ∈ O, t.2 ≠ ⊥) ∧ (∀ t ∈ R, t.2 = ⊥) := by
  induction D with
  | nil => exact ⟨[], [], rfl, by simp, by simp⟩
  | cons a D ih =>
    by_cases ha : a.2 = ⊥
    · refine ⟨[], a :: D, rfl, by simp, ?_⟩
      intro t ht
      rcases List.mem_cons.1 ht with rfl | ht
      · exact ha
      · have := (List.pairwise_cons.1 h).1 t ht
        rw [ha] at this
        exact le_bot_iff.1 this
    · obtain ⟨O, R, rfl, h1, h2⟩ := ih (List.pairwise_cons.1 h).2
      refine ⟨a :: O, R, rfl, ?_, h2⟩
      intro t ht
      rcases List.mem_cons.1 ht with rfl | ht
      · exact ha
      · exact h1 t ht

theorem occ_append (A B : List (Slot P Y V)) : occ (A ++ B) = occ A ++ occ B := by
  simp [occ]

theorem occ_full {A : List (Slot P Y V)} (h : ∀ t ∈ A, t.2 ≠ ⊥) : occ A = A.map Prod.fst := by
  unfold occ
  rw [List.filter_eq_self.2]
  intro t ht; simpa using h t ht

theorem occ_empty {A : List (Slot P Y V)} (h : ∀ t ∈ A, t.2 = ⊥) : occ A = [] := by
  unfold occ
  rw [List.filter_eq_nil_iff.2]
  · rfl
  · intro t ht; simp [h t ht]

theorem occ_cons (t : Slot P Y V) (A : List (Slot P Y V)) :
    occ (t :: A) = if t.2 = ⊥ then occ A else t.1 :: occ A := by
  unfold occ
  by_cases h : t.2 = ⊥ <;> simp [h]

theorem mem_occ {A : List (Slot P Y V)} {e : Ent P Y V} : e ∈ occ A ↔ ∃ c, (e, c) ∈ A ∧ c ≠ ⊥ := by
  simp [occ]

theorem occ_sublist (A : List (Slot P Y V)) : (occ A).Sublist (A.map Prod.fst) :=
  List.filter_sublist.map _

/-- Adding a lie does not increase an acquisition value. -/
def Mono (f : List (P × Y) → P → Y → V) : Prop := ∀ pre q x y, f (pre ++ [q]) x y ≤ f pre x y

/-- The pool is ranked: each occupied slot holds its acquisition value conditioned on the slots above, and no
entry further down has a larger one. -/
def Ranking (f : List (P × Y) → P → Y → V) : List (P × Y) → List (Slot P Y V) → Prop
  | _, [] => True
  | pre, t :: rest => t.2 = ⊥ ∨ (t.2 = f pre t.1.x t.1.y ∧
      (∀ e ∈ occ rest, f pre e.x e.y ≤ t.2) ∧ Ranking f (pre ++ [(t.1.x, t.1.y)]) rest)

theorem lies_append (A B : List (Slot P Y V)) : lies (A ++ B) = lies A ++ lies B := by simp [lies]

theorem filterMap_perm_range {α : Type*} (O : List α) (js : List ℕ) (h : js.Perm (List.range O.length)) :
    (js.filterMap fun j => O[j]?).Perm O := by
  have h1 := h.filterMap (fun j => O[j]?)
  refine h1.trans ?_
  have : ∀ O : List α, (List.range O.length).filterMap (fun j => O[j]?) = O := by
    intro O
    induction O with
    | nil => rfl
    | cons a O ih =>
      rw [List.length_cons, List.range_succ_eq_map, List.filterMap_cons, List.filterMap_map]
      simp only [List.getElem?_cons_zero, Function.comp_def, List.getElem?_cons_succ]
      rw [ih]
  rw [this]

theorem getD_map_some (sl : List (Slot P Y V)) (i : ℕ) :
    (sl.map fun t => some t.2).getD i none = (sl[i]?).map (·.2) := by
  simp [List.getD_eq_getElem?_getD]
  cases sl[i]? <;> rfl

/-- Specification of the recursive sorting below position `U.length`. -/
theorem sortFrom_spec {cfg : Cfg P Y V} {f : List (P × Y) → P → Y → V}
    (hcond : cfg.cond = fun pre x y => some (f pre x y)) (hsort : SortsDesc cfg.argsortDesc) {size : ℕ} :
    ∀ (n : ℕ) (U D : List (Slot P Y V)) (cache : List (Option (List (P × Y)))) (u : Slot P Y V),
      (U ++ [u]).length + n = size → (U ++ [u] ++ D).length = size + 1 → (∀ t ∈ U ++ [u], t.2 ≠ ⊥) →
      Desc (U ++ [u] ++ D) → cache.length = size + 1 → FreshTo (U ++ [u]).length (U ++ [u] ++ D) cache →
      ∃ D' cache', sortFrom cfg n (ofSlots (U ++ [u] ++ D) cache) = .ok (ofSlots (U ++ [u] ++ D') cache') ∧
        D'.length = D.length ∧ Desc (U ++ [u] ++ D') ∧ cache'.length = size + 1 ∧
        FreshTo size (U ++ [u] ++ D') cache' ∧ (occ D').Subperm (occ D) ∧
        ((∀ pre x y, f pre x y ≠ ⊥) → (occ D').Perm (occ D)) ∧
        (Mono f → (∀ e ∈ occ D, f (lies (U ++ [u])) e.x e.y ≤ u.2) → Ranking f (lies (U ++ [u])) D'.dropLast) := by
  intro n
  induction n with
  | zero =>
    intro U D cache u hn hlen hocc hdesc hcl hfresh
    refine ⟨D, cache, rfl, rfl, hdesc, hcl, by rwa [← hn, Nat.add_zero], List.Subperm.refl _, fun _ => .refl _, ?_⟩
    intro hmono hdom
    have hD : ∃ t, D = [t] := by
      rw [← List.length_eq_one_iff]
      simp at hlen hn; omega
    obtain ⟨t, rfl⟩ := hD
    trivial
  | succ n ih =>
    intro U D cache u hn hlen hocc hdesc hcl hfresh
    obtain ⟨W, hW⟩ : ∃ W, W = U ++ [u] := ⟨_, rfl⟩
    rw [← hW] at hn hlen hocc hdesc hfresh ⊢
    have hWne : W.length ≠ 0 := by simp [hW]
    have hi : (W ++ D).length - 1 - (n + 1) = W.length := by omega
    -- caching of the model above
    set cache1 := cache.set (W.length - 1) (some (lies ((W ++ D).take W.length))) with hcache1
    have hcl1 : cache1.length = size + 1 := by simp [hcache1, hcl]
    have htake : (W ++ D).take W.length = W := by simp
    have hfresh1 : FreshTo (W.length + 1) (W ++ D) cache1 := by
      intro j hj t ht htne
      by_cases hjW : j + 1 < W.length
      · rw [hcache1, List.getD_eq_getElem?_getD, List.getElem?_set_ne (by omega), ← List.getD_eq_getElem?_getD]
        exact hfresh j hjW t ht htne
      · have hj' : j = W.length - 1 := by omega
        subst hj'
        rw [hcache1, List.getD_eq_getElem?_getD, List.getElem?_set_self (by omega)]
        have : W.length - 1 + 1 = W.length := by omega
        rw [this]; rfl
    have hstep : ∀ r, (let p := ofSlots (W ++ D) cache1
        if p.acqCond.getD W.length none = some ⊥ then .ok p
        else
          let i1 := p.acqCond.findIdx (fun c => decide (c = some ⊥))
          let ac0 := ((slice p.X W.length i1).zip (slice p.y W.length i1)).map fun q => cfg.cond (p.pre W.length) q.1 q.2
          let ac := if W.length = 0 then ac0 else ac0.map fun v => npMin2 v (p.acqCond.getD (W.length - 1) none)
          let js := cfg.argsortDesc ac
          match js with
          | [] => .error .indexError
          | j0 :: _ =>
            if ac.getD j0 none = some ⊥ then
              .ok { p with acqCond := setSlice p.acqCond W.length i1 (List.replicate (i1 - W.length) (some ⊥)) }
            else
              sortFrom cfg n { p with
                X := reorder p.X W.length i1 js, y := reorder p.y W.length i1 js,
                sigma := reorder p.sigma W.length i1 js,
                acq := reorder p.acq W.length i1 js,
                acqCond := setSlice p.acqCond W.length i1 (js.filterMap fun j => ac[j]?) }) = r →
        sortFrom cfg (n + 1) (ofSlots (W ++ D) cache) = r := by
      intro r hr
      rw [sortFrom]
      simp only [len_ofSlots, hi, cacheModel_ofSlots _ _ _ hWne]
      exact hr
    dsimp only at hstep
    have hacq : (ofSlots (W ++ D) cache1).acqCond = (W ++ D).map fun t => some t.2 := rfl
    have hDdesc : Desc D := (List.pairwise_append.1 hdesc).2.1
    obtain ⟨O, R, hDO, hO, hR⟩ := desc_split D hDdesc
    have hDne : D ≠ [] := by rintro rfl; simp at hlen; omega
    cases O with
    | nil =>
      -- nothing below
      simp only [List.nil_append] at hDO
      refine ⟨D, cache1, ?_, rfl, hdesc, hcl1, ?_, List.Subperm.refl _, fun _ => .refl _, ?_⟩
      · refine hstep _ ?_
        rw [if_pos]
        rw [hacq, getD_map_some, List.getElem?_append_right (le_refl _), Nat.sub_self]
        cases D with
        | nil => exact absurd rfl hDne
        | cons d D => simp; exact hR d (hDO ▸ List.mem_cons_self)
      · intro j hj t ht htne
        apply hfresh1 j _ t ht htne
        by_contra hcon
        rw [List.getElem?_append_right (by omega)] at ht
        exact htne (hR t (hDO ▸ List.mem_of_getElem? ht))
      · intro _ _
        cases hdl : D.dropLast with
        | nil => trivial
        | cons d D2 =>
          left
          apply hR
          rw [← hDO]
          exact (List.dropLast_subset _) (hdl ▸ List.mem_cons_self)
    | cons o O =>
      set OO := o :: O with hOO
      subst hDO
      rw [← List.append_assoc] at hdesc hlen hfresh hfresh1 hstep hacq htake
      -- new values
      set g : Slot P Y V → Slot P Y V := fun t => (t.1, min (f (lies W) t.1.x t.1.y) u.2) with hg
      have hi1 : ((W ++ OO ++ R).map fun t => some t.2).findIdx (fun c => decide (c = some ⊥)) =
          W.length + OO.length := by
        rw [List.map_append, List.map_append]
        rw [findIdx_append_all]
        · simp
        · intro c hc; obtain ⟨t, ht, rfl⟩ := List.mem_map.1 hc; simpa using hocc t ht
        · intro c hc; obtain ⟨t, ht, rfl⟩ := List.mem_map.1 hc; simpa using hO t ht
        · intro c hc; obtain ⟨t, ht, rfl⟩ := List.mem_map.1 hc; simpa using hR t ht
      have hlast : ((W ++ OO ++ R).map fun t => some t.2).getD (W.length - 1) none = some u.2 := by
        rw [getD_map_some, List.append_assoc, List.getElem?_append_left (by omega)]
        simp [hW]
      have hac : (((slice (ofSlots (W ++ OO ++ R) cache1).X W.length (W.length + OO.length)).zip
          (slice (ofSlots (W ++ OO ++ R) cache1).y W.length (W.length + OO.length))).map
            fun q => cfg.cond ((ofSlots (W ++ OO ++ R) cache1).pre W.length) q.1 q.2).map
            (fun v => npMin2 v (some u.2)) = (OO.map fun t => (g t).2).map some := by
        simp only [ofSlots, slice_map, slice_mid]
        rw [show (({ X := _, y := _, sigma := _, acq := _, acqCond := _, cache := _ } : Pool P Y V)) =
          ofSlots (W ++ OO ++ R) cache1 from rfl, pre_ofSlots, htake]
        simp [List.zip_map', List.map_map, hcond, npMin2, hg, Function.comp_def]
      obtain ⟨hperm, hsorted⟩ := hsort (OO.map fun t => (g t).2)
      set js := cfg.argsortDesc ((OO.map fun t => (g t).2).map some) with hjs
      rw [List.length_map] at hperm
      have hjlt : ∀ j ∈ js, j < OO.length := fun j hj => List.mem_range.1 (hperm.mem_iff.1 hj)
      -- the reordered sublist
      set mid := js.filterMap fun j => (OO.map g)[j]? with hmid
      have hmidperm : mid.Perm (OO.map g) := filterMap_perm_range _ _ (by simpa using hperm)
      have hmid2 : mid.map (·.2) = js.filterMap fun j => (OO.map fun t => (g t).2)[j]? := by
        rw [hmid, List.map_filterMap]
        apply List.filterMap_congr
        intro j _
        simp [List.getElem?_map, Option.map_map, Function.comp_def]
      have hmidlen : mid.length = OO.length := by rw [hmidperm.length_eq]; simp
      have hmiddesc : Desc mid := by
        rw [← hmid2] at hsorted
        exact List.pairwise_map.1 hsorted
      have hmidfst : (mid.map Prod.fst).Perm (OO.map Prod.fst) := by
        have := hmidperm.map Prod.fst
        rw [List.map_map] at this
        exact this
      have hsubm : (occ mid).Subperm (occ (OO ++ R)) := by
        rw [occ_append, occ_empty hR, List.append_nil, occ_full hO]
        exact ((occ_sublist mid).subperm).trans hmidfst.subperm
      have hmide : ∃ m0 mr, mid = m0 :: mr := by
        cases hm : mid with
        | nil => rw [hm] at hmidlen; simp [hOO] at hmidlen
        | cons a l => exact ⟨a, l, rfl⟩
      obtain ⟨m0, mr, hm0⟩ := hmide
      have hmemg : ∀ t ∈ mid, t.2 = min (f (lies W) t.1.x t.1.y) u.2 := by
        intro t ht
        obtain ⟨t', _, rfl⟩ := List.mem_map.1 (hmidperm.mem_iff.1 ht)
        rfl
      have hjne : ∃ j0 jr, js = j0 :: jr := by
        cases hj : js with
        | nil => rw [hj] at hperm; simpa [hOO] using hperm.length_eq
        | cons a l => exact ⟨a, l, rfl⟩
      obtain ⟨j0, jr, hj0⟩ := hjne
      have hj0lt : j0 < OO.length := hjlt j0 (hj0 ▸ List.mem_cons_self)
      have hm0eq : (OO.map g)[j0]? = some m0 := by
        have : mid = js.filterMap fun j => (OO.map g)[j]? := hmid
        rw [hm0, hj0, List.filterMap_cons] at this
        rw [List.getElem?_eq_getElem (by simpa using hj0lt)] at this ⊢
        simp only [List.cons.injEq] at this
        rw [this.1]
      have hDOcond : ((W ++ OO ++ R).map fun t => some t.2).getD W.length none ≠ some ⊥ := by
        rw [getD_map_some, List.append_assoc, List.getElem?_append_right (le_refl _), Nat.sub_self, hOO]
        simp
        exact hO o List.mem_cons_self
      have hocc_u : ∀ t ∈ W, t.2 ≠ ⊥ := hocc
      have hWmid : ∀ a ∈ W, ∀ b ∈ mid, b.2 ≤ a.2 := by
        intro a ha b hb
        have h1 : b.2 ≤ u.2 := by rw [hmemg b hb]; exact min_le_right _ _
        have h2 : u.2 ≤ a.2 := by
          have hWd : Desc W := (List.pairwise_append.1 (List.pairwise_append.1 hdesc).1).1
          rw [hW] at ha hWd
          rcases List.mem_append.1 ha with ha | ha
          · exact (List.pairwise_append.1 hWd).2.2 a ha u (by simp)
          · simp at ha; subst ha; exact le_refl _
        exact h1.trans h2
      have hWdesc : Desc W := (List.pairwise_append.1 (List.pairwise_append.1 hdesc).1).1
      have hdescNew : Desc (W ++ mid ++ R) := by
        refine List.pairwise_append.2 ⟨List.pairwise_append.2 ⟨hWdesc, hmiddesc, hWmid⟩,
          (List.pairwise_append.1 hdesc).2.1, ?_⟩
        intro a _ b hb
        rw [hR b hb]; exact bot_le
      by_cases hmax : m0.2 = ⊥
      · -- everything below is excluded
        refine ⟨(OO.map fun t => (t.1, ⊥)) ++ R, cache1, ?_, by simp, ?_, hcl1, ?_, ?_, ?_, ?_⟩
        · rw [← List.append_assoc, ← List.append_assoc]
          refine hstep _ ?_
          rw [hacq, if_neg hDOcond, hi1]
          rw [if_neg hWne, hlast, hac, ← hjs, hj0]
          dsimp only
          rw [if_pos]
          · congr 1
            simp only [ofSlots]
            congr 1
            · simp
            · simp
            · simp
            · simp
            · rw [show W.length = (W.map fun t => (some t.2 : Option V)).length by simp,
                show OO.length = (OO.map fun t => (some t.2 : Option V)).length by simp,
                List.map_append, List.map_append, setSlice_mid]
              simp [Function.comp_def, List.map_const']
          · rw [List.getD_eq_getElem?_getD, List.getElem?_map, List.getElem?_map]
            rw [List.getElem?_map] at hm0eq
            cases ho : OO[j0]? with
            | none => rw [ho] at hm0eq; simp at hm0eq
            | some t => rw [ho] at hm0eq; simp at hm0eq; simp [hm0eq, hmax]
        · rw [← List.append_assoc]
          refine List.pairwise_append.2 ⟨List.pairwise_append.2 ⟨hWdesc, ?_, ?_⟩,
            (List.pairwise_append.1 hdesc).2.1, ?_⟩
          · rw [List.pairwise_map]; exact List.pairwise_of_forall (fun _ _ => le_refl _)
          · intro a _ b hb; obtain ⟨t, _, rfl⟩ := List.mem_map.1 hb; exact bot_le
          · intro a _ b hb; rw [hR b hb]; exact bot_le
        · intro j hj t ht htne
          have hjW : j < W.length := by
            by_contra hcon
            rw [List.getElem?_append_right (by omega)] at ht
            have hm := List.mem_of_getElem? ht
            rcases List.mem_append.1 hm with h | h
            · obtain ⟨t', _, rfl⟩ := List.mem_map.1 h; exact htne rfl
            · exact htne (hR t h)
          rw [List.getElem?_append_left hjW] at ht
          have := hfresh1 j (by omega) t (by rw [List.append_assoc, List.getElem?_append_left hjW]; exact ht) htne
          rw [this, List.append_assoc, List.take_append_of_le_length (show j + 1 ≤ W.length by omega), List.take_append_of_le_length (show j + 1 ≤ W.length by omega)]
        · rw [occ_append, occ_empty (A := OO.map _) (by intro t ht; obtain ⟨t', _, rfl⟩ := List.mem_map.1 ht; rfl),
            occ_empty hR]
          exact List.nil_subperm
        · intro hnb
          exfalso
          have h1 := hmemg m0 (hm0 ▸ List.mem_cons_self)
          rw [hmax] at h1
          rcases min_choice (f (lies W) m0.1.x m0.1.y) u.2 with h | h
          · rw [h] at h1; exact hnb _ _ _ h1.symm
          · rw [h] at h1; exact hocc u (by simp [hW]) h1.symm
        · intro _ _
          rw [hOO]
          cases hdl : ((List.map (fun t => (t.1, (⊥ : V))) (o :: O)) ++ R).dropLast with
          | nil => trivial
          | cons d D2 =>
            left
            have : d ∈ (List.map (fun t => (t.1, (⊥ : V))) (o :: O)) ++ R :=
              (List.dropLast_subset _) (hdl ▸ List.mem_cons_self)
            rcases List.mem_append.1 this with h | h
            · obtain ⟨t', _, rfl⟩ := List.mem_map.1 h; rfl
            · exact hR d h
      · -- recursion
        obtain ⟨D', cache', hrun, hl', hd', hc', hf', hs', hp', hrank⟩ := ih W (mr ++ R) cache1 m0
          (by simp at hn ⊢; omega)
          (by have := congrArg List.length hm0; simp at this hlen ⊢; omega)
          (by
            intro t ht
            rcases List.mem_append.1 ht with h | h
            · exact hocc t h
            · simp at h; subst h; exact hmax)
          (by
            have : W ++ [m0] ++ (mr ++ R) = W ++ mid ++ R := by rw [hm0]; simp
            rw [this]; exact hdescNew)
          hcl1
          (by
            intro j hj t ht htne
            have hjW : j < W.length := by simp at hj; omega
            rw [List.append_assoc, List.getElem?_append_left hjW] at ht
            have := hfresh1 j (by simp at hj; omega) t
              (by rw [List.append_assoc, List.getElem?_append_left hjW]; exact ht) htne
            rw [this, List.append_assoc, List.take_append_of_le_length (show j + 1 ≤ W.length by omega),
              List.append_assoc, List.take_append_of_le_length (show j + 1 ≤ W.length by omega)])
        have hD'ne : D' ≠ [] := by
          rintro rfl
          have := congrArg List.length hm0
          simp at hl' this hlen hn
          omega
        have hoccm : occ mid = m0.1 :: occ mr := by rw [hm0, occ_cons, if_neg hmax]
        refine ⟨m0 :: D', cache', ?_, ?_, ?_, hc', ?_, ?_, ?_, ?_⟩
        · rw [← List.append_assoc]
          refine hstep _ ?_
          rw [hacq, if_neg hDOcond, hi1]
          rw [if_neg hWne, hlast, hac, ← hjs, hj0]
          dsimp only
          rw [if_neg]
          · rw [← hj0]
            have hpool : ({ ofSlots (W ++ OO ++ R) cache1 with
                X := reorder (ofSlots (W ++ OO ++ R) cache1).X W.length (W.length + OO.length) js,
                y := reorder (ofSlots (W ++ OO ++ R) cache1).y W.length (W.length + OO.length) js,
                sigma := reorder (ofSlots (W ++ OO ++ R) cache1).sigma W.length (W.length + OO.length) js,
                acq := reorder (ofSlots (W ++ OO ++ R) cache1).acq W.length (W.length + OO.length) js,
                acqCond := setSlice ((W ++ OO ++ R).map fun t => some t.2) W.length (W.length + OO.length)
                  (js.filterMap fun j => ((OO.map fun t => (g t).2).map some)[j]?) } : Pool P Y V) =
                ofSlots (W ++ [m0] ++ (mr ++ R)) cache1 := by
              have e1 : W ++ [m0] ++ (mr ++ R) = W ++ mid ++ R := by rw [hm0]; simp
              rw [e1]
              simp only [ofSlots]
              congr 1
              · exact reorder_slots W OO R mid g js (fun _ => rfl) hjlt hmid (·.x)
              · exact reorder_slots W OO R mid g js (fun _ => rfl) hjlt hmid (·.y)
              · exact reorder_slots W OO R mid g js (fun _ => rfl) hjlt hmid (·.s)
              · exact reorder_slots W OO R mid g js (fun _ => rfl) hjlt hmid (fun e => some e.a)
              · have hW' : W.length = (W.map fun t => (some t.2 : Option V)).length := by simp
                have hO' : OO.length = (OO.map fun t => (some t.2 : Option V)).length := by simp
                rw [List.map_append, List.map_append, hW', hO', setSlice_mid, List.map_append, List.map_append]
                congr 2
                have : (mid.map fun t => (some t.2 : Option V)) = (mid.map (·.2)).map some := by simp
                rw [this, hmid2, List.map_filterMap]
                apply List.filterMap_congr
                intro j _
                simp [List.getElem?_map, Option.map_map, Function.comp_def]
            rw [hpool, hrun]
            congr 2
            simp
          · rw [List.getD_eq_getElem?_getD, List.getElem?_map, List.getElem?_map]
            rw [List.getElem?_map] at hm0eq
            cases ho : OO[j0]? with
            | none => rw [ho] at hm0eq; simp at hm0eq
            | some t => rw [ho] at hm0eq; simp at hm0eq; simp [hm0eq, hmax]
        · have := congrArg List.length hm0
          simp at this hl' ⊢; omega
        · have : W ++ m0 :: D' = W ++ [m0] ++ D' := by simp
          rw [this]; exact hd'
        · have : W ++ m0 :: D' = W ++ [m0] ++ D' := by simp
          rw [this]; exact hf'
        · rw [occ_cons, if_neg hmax]
          have h1 : (m0.1 :: occ D').Subperm (m0.1 :: occ (mr ++ R)) := List.subperm_cons _ |>.2 hs'
          refine h1.trans ?_
          rw [occ_append mr R, occ_empty hR, List.append_nil, ← hoccm]
          exact hsubm
        · intro hnb
          rw [occ_cons, if_neg hmax]
          have h1 := (hp' hnb).cons m0.1
          refine h1.trans ?_
          rw [occ_append mr R, occ_empty hR, List.append_nil, ← hoccm]
          have hmne : ∀ t ∈ mid, t.2 ≠ ⊥ := by
            intro t ht h0
            have h1 := hmemg t ht
            rw [h0] at h1
            rcases min_choice (f (lies W) t.1.x t.1.y) u.2 with h | h
            · rw [h] at h1; exact hnb _ _ _ h1.symm
            · rw [h] at h1; exact hocc u (by simp [hW]) h1.symm
          rw [occ_full hmne, occ_append, occ_empty hR, List.append_nil, occ_full hO]
          exact hmidfst
        · intro hmono hdom
          have hmemD : ∀ t ∈ mid, t.1 ∈ occ (OO ++ R) := by
            intro t ht
            have : t.1 ∈ OO.map Prod.fst := hmidfst.mem_iff.1 (List.mem_map.2 ⟨t, ht, rfl⟩)
            rw [occ_append, occ_full hO]
            exact List.mem_append_left _ this
          have hc : ∀ t ∈ mid, t.2 = f (lies W) t.1.x t.1.y := by
            intro t ht
            rw [hmemg t ht, min_eq_left (hdom _ (hmemD t ht))]
          have hdm : ∀ e ∈ occ (mr ++ R), f (lies W) e.x e.y ≤ m0.2 := by
            intro e he
            rw [occ_append, occ_empty hR, List.append_nil] at he
            obtain ⟨c, hc', _⟩ := mem_occ.1 he
            have h1 : (e, c) ∈ mid := hm0 ▸ List.mem_cons_of_mem _ hc'
            have h2 := hc _ h1
            rw [← h2]
            rw [hm0] at hmiddesc
            exact (List.pairwise_cons.1 hmiddesc).1 _ hc'
          rw [List.dropLast_cons_of_ne_nil hD'ne]
          right
          refine ⟨hc m0 (hm0 ▸ List.mem_cons_self), ?_, ?_⟩
          · intro e he
            apply hdm
            have : e ∈ occ D' := by
              obtain ⟨c, h1, h2⟩ := mem_occ.1 he
              exact mem_occ.2 ⟨c, (List.dropLast_subset _) h1, h2⟩
            exact hs'.subset this
          · have := hrank hmono (by
              intro e he
              rw [lies_append]
              exact (hmono _ _ _ _).trans (hdm e he))
            rw [lies_append] at this
            exact this

end GPry.Ranked
