import Verif.Gpr
import Mathlib.Tactic.Linarith
import Mathlib.Algebra.Order.Field.Rat

/-!
# Specification `Kept` of the training set and the classification lemma
-/

set_option linter.all false

namespace GPry.Gpr

variable {K : Type*} [Field K] [LinearOrder K] [IsStrictOrderedRing K]

/-! ## Specification: which targets count as finite -/

/-- A target is usable: real or `-inf`. -/
def Good (y : Ext K) : Prop := y = .negInf ∨ ∃ v, y = .fin v

/-- A threshold is admissible: a non-negative number or `+inf`. -/
def ThrOk (thr : Ext K) : Prop := thr = .posInf ∨ ∃ t, thr = .fin t ∧ 0 ≤ t

/-- Distance `d` is within the threshold. -/
def Within (thr : Ext K) (d : K) : Prop := thr = .posInf ∨ ∃ t, thr = .fin t ∧ d ≤ t

/-- Number of real targets in `ys` larger than `c`. -/
def numAbove (c : K) (ys : List (Ext K)) : ℕ :=
  ys.countP fun w => match w with
    | .fin a => decide (c < a)
    | _ => false

/-- **Specification.** `y` is in the training set built from all the targets `ys`: it is real, and either
not further than the threshold below every other one, or (for `keepMin ≥ 2`) up to `eps` one of the
`keepMin` largest ones. -/
def Kept (thr : Ext K) (keepMin : ℕ) (eps : K) (ys : List (Ext K)) (y : Ext K) : Prop :=
  ∃ v, y = .fin v ∧
    ((∀ w, Ext.fin w ∈ ys → Within thr (w - v)) ∨ (2 ≤ keepMin ∧ numAbove (v + eps) ys < keepMin))

/-! ## Lemmas on extended numbers -/

theorem sortLe_total (a b : Ext K) : (Ext.sortLe a b || Ext.sortLe b a) = true := by
  cases a <;> cases b <;> simp [Ext.sortLe, Ext.le, le_total]

theorem sortLe_trans (a b c : Ext K) :
    Ext.sortLe a b = true → Ext.sortLe b c = true → Ext.sortLe a c = true := by
  cases a <;> cases b <;> cases c <;> simp [Ext.sortLe, Ext.le] <;> exact le_trans

theorem sort_sorted (ys : List (Ext K)) :
    (Ext.sort ys).Pairwise (fun a b => Ext.sortLe a b = true) := by
  have : Std.Total (fun a b : Ext K => Ext.sortLe a b = true) :=
    ⟨fun a b => by simpa [Bool.or_eq_true] using sortLe_total a b⟩
  have : IsTrans (Ext K) (fun a b : Ext K => Ext.sortLe a b = true) := ⟨sortLe_trans⟩
  exact List.pairwise_insertionSort _ ys

theorem sort_perm (ys : List (Ext K)) : (Ext.sort ys).Perm ys := List.perm_insertionSort _ ys

/-- `np.max` of usable values is an upper bound that is attained. -/
theorem npMax_good (ys : List (Ext K)) (hg : ∀ y ∈ ys, Good y) (hne : ys ≠ []) :
    ∃ m, Ext.npMax ys = some m ∧ m ∈ ys ∧ ∀ y ∈ ys, Ext.le y m = true := by
  cases ys with
  | nil => exact absurd rfl hne
  | cons x xs =>
    refine ⟨xs.foldl Ext.npMax2 x, rfl, ?_⟩
    clear hne
    induction xs generalizing x with
    | nil =>
      have hx := hg x (by simp)
      refine ⟨by simp, ?_⟩
      intro y hy
      simp only [List.mem_singleton] at hy
      subst hy
      rcases hx with rfl | ⟨v, rfl⟩ <;> simp [Ext.le]
    | cons z zs ih =>
      have hx := hg x (by simp)
      have hz := hg z (by simp)
      have hmem : Ext.npMax2 x z = x ∨ Ext.npMax2 x z = z := by
        unfold Ext.npMax2; split_ifs <;> simp
      have hup : Ext.le x (Ext.npMax2 x z) = true ∧ Ext.le z (Ext.npMax2 x z) = true := by
        rcases hx with rfl | ⟨v, rfl⟩ <;> rcases hz with rfl | ⟨w, rfl⟩ <;>
          simp [Ext.npMax2, Ext.isNan, Ext.lt, Ext.le]
        split_ifs with h
        · simp [Ext.le, h.le]
        · simp [Ext.le, not_lt.mp h]
      have hgz : Good (Ext.npMax2 x z) := by rcases hmem with h | h <;> rw [h] <;> assumption
      obtain ⟨h1, h2⟩ := ih (Ext.npMax2 x z) (by
        intro y hy
        rcases List.mem_cons.1 hy with rfl | hy
        · exact hgz
        · exact hg y (by simp [hy]))
      simp only [List.foldl_cons]
      have trans : ∀ a b c : Ext K, Ext.le a b = true → Ext.le b c = true → Ext.le a c = true := by
        intro a b c
        cases a <;> cases b <;> cases c <;> simp [Ext.le] <;> exact le_trans
      refine ⟨?_, ?_⟩
      · rcases List.mem_cons.1 h1 with h | h
        · rw [h]; rcases hmem with h' | h' <;> simp [h']
        · simp [h]
      · intro y hy
        have hb := h2 _ (List.mem_cons_self)
        rcases List.mem_cons.1 hy with rfl | hy
        · exact trans _ _ _ hup.1 hb
        · rcases List.mem_cons.1 hy with rfl | hy
          · exact trans _ _ _ hup.2 hb
          · exact h2 y (by simp [hy])

/-- On usable values Python's `max` and numpy's `max` agree. -/
theorem pyMax_eq_npMax (ys : List (Ext K)) (hg : ∀ y ∈ ys, Good y) : Ext.pyMax ys = Ext.npMax ys := by
  cases ys with
  | nil => rfl
  | cons x xs =>
    simp only [Ext.pyMax, Ext.npMax, Option.some.injEq]
    induction xs generalizing x with
    | nil => rfl
    | cons z zs ih =>
      have hx := hg x (by simp)
      have hz := hg z (by simp)
      have he : Ext.pyMax2 x z = Ext.npMax2 x z := by
        rcases hx with rfl | ⟨v, rfl⟩ <;> rcases hz with rfl | ⟨w, rfl⟩ <;>
          simp [Ext.npMax2, Ext.pyMax2, Ext.isNan, Ext.lt, Ext.gt]
      have hgz : Good (Ext.npMax2 x z) := by
        unfold Ext.npMax2; split_ifs <;> assumption
      simp only [List.foldl_cons, he]
      apply ih
      intro y hy
      rcases List.mem_cons.1 hy with rfl | hy
      · exact hgz
      · exact hg y (by simp [hy])

theorem numAbove_perm (c : K) {l l' : List (Ext K)} (h : l.Perm l') : numAbove c l = numAbove c l' :=
  h.countP_eq _

theorem numAbove_le_length (c : K) (l : List (Ext K)) : numAbove c l ≤ l.length :=
  List.countP_le_length

/-- Order statistics: the `k`-th largest value of usable targets. -/
theorem nth_largest (ys : List (Ext K)) (hg : ∀ y ∈ ys, Good y) (k : ℕ) (hk : 1 ≤ k)
    (hkl : k ≤ ys.length) :
    ∃ b, (Ext.sort ys)[(Ext.sort ys).length - k]? = some b ∧ b ∈ ys ∧
      (∀ c, Ext.le b (.fin c) = true → numAbove c ys < k) ∧
      (∀ c, Ext.le b (.fin c) = false → k ≤ numAbove c ys) ∧
      (k = ys.length → ∀ y ∈ ys, Ext.le b y = true) := by
  have hp := sort_perm ys
  have hs := sort_sorted ys
  have hg' : ∀ y ∈ Ext.sort ys, Good y := fun y hy => hg y (hp.mem_iff.1 hy)
  have hlen := hp.length_eq
  set s := Ext.sort ys with hsdef
  have hlt : s.length - k < s.length := by omega
  have hb : s[s.length - k]? = some s[s.length - k] := List.getElem?_eq_getElem hlt
  have hsplit : s = s.take (s.length - k) ++ s.drop (s.length - k) := (List.take_append_drop _ _).symm
  have hdrop : s.drop (s.length - k) = s[s.length - k] :: s.drop (s.length - k + 1) :=
    List.drop_eq_getElem_cons hlt
  have hleN : ∀ a b : Ext K, Good a → Good b → Ext.sortLe a b = true → Ext.le a b = true := by
    rintro a b (rfl | ⟨v, rfl⟩) (rfl | ⟨w, rfl⟩) <;> simp [Ext.sortLe]
  have htake : ∀ y ∈ s.take (s.length - k), Ext.le y s[s.length - k] = true := by
    intro y hy
    have hpw := hs
    rw [hsplit, List.pairwise_append] at hpw
    exact hleN _ _ (hg' y (List.mem_of_mem_take hy)) (hg' _ (List.getElem_mem _))
      (hpw.2.2 y hy _ (by rw [hdrop]; exact List.mem_cons_self))
  have hdr : ∀ y ∈ s.drop (s.length - k), Ext.le s[s.length - k] y = true := by
    intro y hy
    have hpw := hs
    rw [hsplit, List.pairwise_append, hdrop, List.pairwise_cons] at hpw
    rw [hdrop] at hy
    have hgb := hg' _ (List.getElem_mem hlt)
    rcases List.mem_cons.1 hy with rfl | hy'
    · rcases hgb with h | ⟨v, h⟩ <;> rw [h] <;> simp [Ext.le]
    · exact hleN _ _ hgb (hg' y (List.mem_of_mem_drop hy')) (hpw.2.1.1 y hy')
  refine ⟨s[s.length - k], hb, hp.mem_iff.1 (List.getElem_mem _), ?_, ?_, ?_⟩
  · intro c hc
    rw [← numAbove_perm c hp]
    have h0 : numAbove c (s.take (s.length - k)) = 0 := by
      unfold numAbove
      rw [List.countP_eq_zero]
      intro y hy
      have := htake y hy
      cases y with
      | fin a =>
        rcases hg' _ (List.getElem_mem hlt) with h | ⟨v, h⟩
        · rw [h] at this; simp [Ext.le] at this
        · rw [h] at this hc; simp [Ext.le] at this hc
          simp; linarith
      | _ => simp
    have h1 : numAbove c (s.drop (s.length - k)) ≤ k - 1 := by
      rw [hdrop]
      unfold numAbove
      rw [List.countP_cons]
      have h2 : (match s[s.length - k] with | .fin a => decide (c < a) | _ => false) = false := by
        rcases hg' _ (List.getElem_mem hlt) with h | ⟨v, h⟩
        · rw [h]
        · rw [h] at hc ⊢; simp [Ext.le] at hc ⊢; exact hc
      have h3 : (s.drop (s.length - k + 1)).length = k - 1 := by rw [List.length_drop]; omega
      have h4 := numAbove_le_length c (s.drop (s.length - k + 1))
      unfold numAbove at h4
      rw [h2]
      simp only [Bool.false_eq_true, if_false]
      omega
    have : numAbove c s = numAbove c (s.take (s.length - k)) + numAbove c (s.drop (s.length - k)) := by
      conv_lhs => rw [hsplit]
      unfold numAbove
      rw [List.countP_append]
    omega
  · intro c hc
    rw [← numAbove_perm c hp]
    have h1 : numAbove c (s.drop (s.length - k)) = k := by
      have h3 : (s.drop (s.length - k)).length = k := by rw [List.length_drop]; omega
      conv_rhs => rw [← h3]
      unfold numAbove
      rw [List.countP_eq_length]
      intro y hy
      have := hdr y hy
      rcases hg' _ (List.getElem_mem hlt) with h | ⟨v, h⟩
      · rw [h] at hc; simp [Ext.le] at hc
      · rw [h] at hc this; simp [Ext.le] at hc
        rcases hg' y (List.mem_of_mem_drop hy) with h' | ⟨w, h'⟩
        · rw [h'] at this; simp [Ext.le] at this
        · rw [h'] at this ⊢; simp [Ext.le] at this ⊢; linarith
    have : numAbove c s = numAbove c (s.take (s.length - k)) + numAbove c (s.drop (s.length - k)) := by
      conv_lhs => rw [hsplit]
      unfold numAbove
      rw [List.countP_append]
    omega
  · intro hkeq y hy
    have hz : s.length - k = 0 := by omega
    apply hdr
    rw [hz]
    simpa using hp.mem_iff.2 hy

theorem within_iff (thr : Ext K) (h : ThrOk thr) (m v : K) :
    isFiniteRaw thr (.fin m) (.fin v) = true ↔ Within thr (m - v) := by
  rcases h with rfl | ⟨t, rfl, ht⟩
  · simp [isFiniteRaw, Within, Ext.ge, Ext.sub, Ext.le, Ext.isFinite]
  · simp only [isFiniteRaw, Within, Ext.ge, Ext.sub, Ext.le, Ext.isFinite, Bool.and_true,
      decide_eq_true_eq, reduceCtorEq, Ext.fin.injEq, false_or]
    constructor
    · intro h; exact ⟨t, rfl, by linarith⟩
    · rintro ⟨t', rfl, h⟩; linarith

/-- **Main classification lemma**: the code's threshold and mask are exactly the specification `Kept`. -/
theorem classify_eq (ys : List (Ext K)) (hg : ∀ y ∈ ys, Good y) (hne : ys ≠ []) (thr : Ext K)
    (hthr : ThrOk thr) (n : ℕ) (eps : K) (heps : 0 ≤ eps) :
    ∃ T mask, diffThresholdKeepN eps ys n thr = .ok T ∧ ThrOk T ∧ isFiniteAll T ys = .ok mask ∧
      mask.length = ys.length ∧
      ∀ i (h : i < ys.length) (h' : i < mask.length), mask[i] = true ↔ Kept thr n eps ys ys[i] := by
  obtain ⟨m, hm, hmem, hup⟩ := npMax_good ys hg hne
  -- it is enough to find the threshold and show the classification element-wise
  suffices h : ∃ T, diffThresholdKeepN eps ys n thr = .ok T ∧ ThrOk T ∧
      ∀ y ∈ ys, isFiniteRaw T m y = true ↔ Kept thr n eps ys y by
    obtain ⟨T, hT, hTok, hall⟩ := h
    refine ⟨T, ys.map (isFiniteRaw T m), hT, hTok, by simp [isFiniteAll, hm], by simp, ?_⟩
    intro i h h'
    rw [List.getElem_map]
    exact hall _ (List.getElem_mem h)
  -- all `-inf`
  rcases hg m hmem with rfl | ⟨m, rfl⟩
  · have hall : ∀ y ∈ ys, y = .negInf := by
      intro y hy
      have := hup y hy
      rcases hg y hy with rfl | ⟨v, rfl⟩
      · rfl
      · simp [Ext.le] at this
    have hK : ∀ T : Ext K, ∀ y ∈ ys, isFiniteRaw T .negInf y = true ↔ Kept thr n eps ys y := by
      intro T y hy
      rw [hall y hy]
      constructor
      · intro h; simp [isFiniteRaw, Ext.isFinite] at h
      · rintro ⟨v, hv, _⟩; cases hv
    by_cases hn : n ≤ 1
    · exact ⟨thr, by simp [diffThresholdKeepN, hn], hthr, hK thr⟩
    · have hl : 1 ≤ ys.length := List.length_pos_iff.2 hne
      obtain ⟨b, hb, hbm, -⟩ := nth_largest ys hg (min n ys.length) (by omega) (by omega)
      obtain ⟨t, ht, htm, -⟩ := nth_largest ys hg 1 le_rfl hl
      rw [hall b hbm] at hb
      rw [hall t htm] at ht
      refine ⟨thr, ?_, hthr, hK thr⟩
      have hlen := (sort_perm ys).length_eq
      rw [← hlen] at hb
      simp only [diffThresholdKeepN, hn, if_false, List.getLast?_eq_getElem?, hb, ht]
      simp [Ext.sub, Ext.addFin, Ext.pyMax2, Ext.gt]
      cases thr <;> rfl
  · -- real maximum
    have hmax : ∀ w, Ext.fin w ∈ ys → w ≤ m := by
      intro w hw
      have := hup _ hw
      simpa [Ext.le] using this
    have hWiff : ∀ v, (∀ w, Ext.fin w ∈ ys → Within thr (w - v)) ↔ Within thr (m - v) := by
      intro v
      constructor
      · intro h; exact h m hmem
      · intro h w hw
        rcases h with h | ⟨t, ht, h⟩
        · exact .inl h
        · exact .inr ⟨t, ht, by have := hmax w hw; linarith⟩
    by_cases hn : n ≤ 1
    · refine ⟨thr, by simp [diffThresholdKeepN, hn], hthr, ?_⟩
      intro y hy
      rcases hg y hy with rfl | ⟨v, rfl⟩
      · constructor
        · intro h; simp [isFiniteRaw, Ext.isFinite] at h
        · rintro ⟨v, hv, _⟩; cases hv
      · rw [within_iff thr hthr]
        constructor
        · intro h; exact ⟨v, rfl, .inl ((hWiff v).2 h)⟩
        · rintro ⟨v', hv, h | h⟩
          · cases hv; exact (hWiff v).1 h
          · omega
    · have hl : 1 ≤ ys.length := List.length_pos_iff.2 hne
      obtain ⟨b, hb, hbm, hb1, hb2, hb3⟩ := nth_largest ys hg (min n ys.length) (by omega) (by omega)
      obtain ⟨t, ht, htm, ht1, ht2, -⟩ := nth_largest ys hg 1 le_rfl hl
      -- the last of the sorted values is the maximum
      have htop : t = .fin m := by
        rcases hg t htm with rfl | ⟨t, rfl⟩
        · have h0 := ht1 (m - 1) (by simp [Ext.le])
          have : 0 < numAbove (m - 1) ys := by
            unfold numAbove
            rw [List.countP_pos_iff]
            exact ⟨_, hmem, by simp⟩
          omega
        · have h1 := hmax t htm
          have h2 := ht1 t (by simp [Ext.le])
          by_contra hcon
          have : t < m := lt_of_le_of_ne h1 (fun h => hcon (by rw [h]))
          have : 0 < numAbove t ys := by
            unfold numAbove
            rw [List.countP_pos_iff]
            exact ⟨_, hmem, by simpa using this⟩
          omega
      subst htop
      have hlen := (sort_perm ys).length_eq
      rw [← hlen] at hb
      have hT : diffThresholdKeepN eps ys n thr =
          .ok (Ext.pyMax2 thr (((Ext.fin m).sub b).addFin eps)) := by
        simp only [diffThresholdKeepN, hn, if_false, List.getLast?_eq_getElem?, hb, ht]
      refine ⟨_, hT, ?_⟩
      -- membership among the best `n`, in terms of `b`
      have hbest : ∀ v, Ext.fin v ∈ ys →
          (numAbove (v + eps) ys < n ↔ Ext.le b (.fin (v + eps)) = true) := by
        intro v hv
        constructor
        · intro h
          by_contra hcon
          have hcon' : Ext.le b (.fin (v + eps)) = false := by simpa using hcon
          have := hb2 _ hcon'
          have hnl : ys.length < n := by omega
          have hkl : min n ys.length = ys.length := by omega
          have h3 := hb3 hkl _ hv
          rcases hg b hbm with rfl | ⟨b, rfl⟩
          · simp [Ext.le] at hcon'
          · simp [Ext.le] at hcon' h3; linarith
        · intro h
          have := hb1 _ h
          omega
      rcases hg b hbm with rfl | ⟨b, rfl⟩
      · -- fewer real values than `n`: everything real is kept
        have hTT : Ext.pyMax2 thr (((Ext.fin m).sub .negInf).addFin eps) = .posInf := by
          rcases hthr with rfl | ⟨t, rfl, _⟩ <;> simp [Ext.sub, Ext.addFin, Ext.pyMax2, Ext.gt, Ext.lt]
        rw [hTT]
        refine ⟨.inl rfl, ?_⟩
        intro y hy
        rcases hg y hy with rfl | ⟨v, rfl⟩
        · constructor
          · intro h; simp [isFiniteRaw, Ext.isFinite] at h
          · rintro ⟨v, hv, _⟩; cases hv
        · constructor
          · intro _
            exact ⟨v, rfl, .inr ⟨by omega, (hbest v hy).2 (by simp [Ext.le])⟩⟩
          · intro _; rw [within_iff _ (.inl rfl)]; exact .inl rfl
      · have hbm' := hmax b hbm
        simp only [Ext.sub, Ext.addFin]
        rcases hthr with rfl | ⟨t, rfl, ht0⟩
        · have hTT : Ext.pyMax2 (.posInf : Ext K) (.fin (m - b + eps)) = .posInf := by
            simp [Ext.pyMax2, Ext.gt, Ext.lt]
          rw [hTT]
          refine ⟨.inl rfl, ?_⟩
          intro y hy
          rcases hg y hy with rfl | ⟨v, rfl⟩
          · constructor
            · intro h; simp [isFiniteRaw, Ext.isFinite] at h
            · rintro ⟨v, hv, _⟩; cases hv
          · constructor
            · intro _; exact ⟨v, rfl, .inl fun _ _ => .inl rfl⟩
            · intro _; rw [within_iff _ (.inl rfl)]; exact .inl rfl
        · have hTT : Ext.pyMax2 (.fin t : Ext K) (.fin (m - b + eps)) = .fin (max t (m - b + eps)) := by
            simp only [Ext.pyMax2, Ext.gt, Ext.lt, decide_eq_true_eq]
            split_ifs with h
            · rw [max_eq_right h.le]
            · rw [max_eq_left (not_lt.1 h)]
          rw [hTT]
          have hTok : ThrOk (.fin (max t (m - b + eps)) : Ext K) :=
            .inr ⟨_, rfl, le_trans ht0 (le_max_left _ _)⟩
          refine ⟨hTok, ?_⟩
          intro y hy
          rcases hg y hy with rfl | ⟨v, rfl⟩
          · constructor
            · intro h; simp [isFiniteRaw, Ext.isFinite] at h
            · rintro ⟨v, hv, _⟩; cases hv
          · rw [within_iff _ hTok]
            have hb' := hbest v hy
            simp only [Ext.le, decide_eq_true_eq] at hb'
            constructor
            · rintro (h | ⟨T, hT', h⟩)
              · cases h
              · cases hT'
                refine ⟨v, rfl, ?_⟩
                rcases le_max_iff.1 h with h | h
                · exact .inl ((hWiff v).2 (.inr ⟨t, rfl, h⟩))
                · exact .inr ⟨by omega, hb'.2 (by linarith)⟩
            · rintro ⟨v', hv, h | ⟨_, h⟩⟩
              · cases hv
                rcases (hWiff v).1 h with h | ⟨t', ht', h⟩
                · cases h
                · cases ht'
                  exact .inr ⟨_, rfl, le_trans h (le_max_left _ _)⟩
              · cases hv
                have := hb'.1 h
                exact .inr ⟨_, rfl, le_trans (by linarith) (le_max_right _ _)⟩

end GPry.Gpr
