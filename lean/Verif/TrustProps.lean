import Verif.Trust
import Verif.ToolsProps
import Mathlib.Data.Fin.VecNotation
import Mathlib.Algebra.Order.Archimedean.Basic
import Mathlib.Data.Rat.Floor

set_option linter.all false

namespace GPry.Trust

variable {K : Type*} [Field K] [LinearOrder K] [IsStrictOrderedRing K]

theorem maxOf_isMax {l : List K} (h : l ≠ []) : ∃ m, Tools.maxOf l = some m ∧ m ∈ l ∧ ∀ x ∈ l, x ≤ m := by
  cases l with
  | nil => exact absurd rfl h
  | cons a l =>
    obtain ⟨h1, h2⟩ := Tools.foldl_max_spec l a
    exact ⟨_, rfl, h2, h1⟩

/-- The loop ends with the first threshold of the grid for which there are enough points. -/
theorem loop_ends {d : ℕ} (delta : K → K) (tr : List ((Fin d → K) × K)) (k : ℕ) : ∀ (s : K) (use : List ((Fin d → K) × K)),
    use.length < min d tr.length →
    (∀ i, i < k → (select delta tr (s + i / 10)).length < min d tr.length) →
    min d tr.length ≤ (select delta tr (s + k / 10)).length →
    ∀ fuel, k + 2 ≤ fuel → loop delta tr fuel s use = some (select delta tr (s + k / 10)) := by
  induction k with
  | zero =>
    intro s use hu _ hk fuel hf
    obtain ⟨f, rfl⟩ : ∃ f, fuel = f + 2 := ⟨fuel - 2, by omega⟩
    rw [loop, if_pos hu, loop, if_neg]
    · simp
    · rw [not_lt]
      simp only [Nat.cast_zero, zero_div, add_zero] at hk
      exact hk
  | succ k ih =>
    intro s use hu hlt hk fuel hf
    obtain ⟨f, rfl⟩ : ∃ f, fuel = f + 1 := ⟨fuel - 1, by omega⟩
    rw [loop, if_pos hu]
    have e : ∀ i : ℕ, s + 1 / 10 + (i : K) / 10 = s + ((i + 1 : ℕ) : K) / 10 := by intro i; push_cast; ring
    have := ih (s + 1 / 10) (select delta tr s) (by simpa using hlt 0 (by omega)) (by
      intro i hi
      rw [e]; exact hlt (i + 1) (by omega)) (by rw [e]; exact hk) f (by omega)
    rw [this, e]

/-- **C21**: let the threshold function increase without bound along the grid, the factor be at least one, and the training
set not be empty. Then the loop ends, whatever the number of iterations needed, and the trust bounds that are computed

* lie within the prior bounds,
* contain all the points used to define them (those inside the prior bounds, see C45),
* which are at least `min(d, n)` of the training points: those with the highest targets, all those within the
  given threshold among them, and no others if these are enough;
* are at most `factor` times as wide as the interval that the points span. -/
theorem C21_trust {d : ℕ} (hd : 0 < d) (delta : K → K) (bounds : Fin d → K × K) (f : K) (hf : 1 ≤ f) (nstd : Option K)
    (hmono : Monotone delta) (hunb : ∀ s, nstd = some s → ∀ B, ∃ k : ℕ, B < delta (s + k / 10))
    (tr : List ((Fin d → K) × K)) (hne : tr ≠ []) (old : Option (Fin d → K × K)) :
    ∃ (N : ℕ) (b : Fin d → K × K) (use : List ((Fin d → K) × K)),
      (∀ fuel, N ≤ fuel → updateTrust delta bounds (some f) nstd tr old fuel = some (.ok (some b))) ∧
      (∀ j, (bounds j).1 ≤ (b j).1 ∧ (b j).2 ≤ (bounds j).2) ∧
      use.Sublist tr ∧ min d tr.length ≤ use.length ∧
      (∀ p ∈ use, ∀ j, (bounds j).1 ≤ p.1 j → p.1 j ≤ (bounds j).2 → (b j).1 ≤ p.1 j ∧ p.1 j ≤ (b j).2) ∧
      (∀ p ∈ use, ∀ q ∈ tr, p.2 ≤ q.2 → q ∈ use) ∧
      (nstd = none → use = tr) ∧
      (∀ s, nstd = some s → (∀ p ∈ tr, (∀ q ∈ tr, q.2 - p.2 < delta s) → p ∈ use) ∧
        (min d tr.length ≤ (tr.filter fun p => tr.all fun q => q.2 - p.2 < delta s).length →
          use = tr.filter fun p => tr.all fun q => q.2 - p.2 < delta s)) ∧
      (∀ j, ∃ p ∈ use, ∃ q ∈ use, (b j).2 - (b j).1 ≤ f * (q.1 j - p.1 j)) := by
  -- the points used
  have hmaxne : tr.map Prod.snd ≠ [] := by simpa using hne
  obtain ⟨top, htop, htopm, htople⟩ := maxOf_isMax hmaxne
  have hsel : ∀ s, select delta tr s = tr.filter fun p => decide (top - p.2 < delta s) := by
    intro s; unfold select; rw [htop]
  have hall : ∀ (p : (Fin d → K) × K) (B : K), top - p.2 < B ↔ ∀ q ∈ tr, q.2 - p.2 < B := by
    intro p B
    constructor
    · intro h q hq
      have := htople q.2 (List.mem_map_of_mem (f := Prod.snd) hq)
      linarith
    · intro h
      obtain ⟨q, hq, hqe⟩ := List.mem_map.1 htopm
      rw [← hqe]; exact h q hq
  have hselall : ∀ s, select delta tr s = tr.filter fun p => tr.all fun q => q.2 - p.2 < delta s := by
    intro s
    rw [hsel]
    apply List.filter_congr
    intro p _
    rw [Bool.eq_iff_iff, decide_eq_true_eq, hall, List.all_eq_true]
    simp
  have hnpos : 0 < tr.length := List.length_pos_iff.2 hne
  have hmin : 0 < min d tr.length := lt_min hd hnpos
  have huse : ∃ (N : ℕ) (use : List ((Fin d → K) × K)),
      (∀ fuel, N ≤ fuel → used delta nstd tr fuel = some use) ∧
      use.Sublist tr ∧ min d tr.length ≤ use.length ∧ (∀ p ∈ use, ∀ q ∈ tr, p.2 ≤ q.2 → q ∈ use) ∧
      (nstd = none → use = tr) ∧
      (∀ s, nstd = some s → (∀ p ∈ tr, (∀ q ∈ tr, q.2 - p.2 < delta s) → p ∈ use) ∧
        (min d tr.length ≤ (tr.filter fun p => tr.all fun q => q.2 - p.2 < delta s).length →
          use = tr.filter fun p => tr.all fun q => q.2 - p.2 < delta s)) := by
    cases nstd with
    | none => exact ⟨0, tr, fun _ _ => rfl, List.Sublist.refl _, min_le_right _ _, fun _ _ q hq _ => hq, fun _ => rfl, fun s h => by cases h⟩
    | some s =>
      have hex : ∃ k : ℕ, min d tr.length ≤ (select delta tr (s + k / 10)).length := by
        obtain ⟨lo, hlo, hlom, hlole⟩ := maxOf_isMax (l := (tr.map fun p => top - p.2)) (by simpa using hne)
        obtain ⟨k, hk⟩ := hunb s rfl lo
        refine ⟨k, ?_⟩
        rw [hsel, List.filter_eq_self.2]
        · exact min_le_right _ _
        · intro p hp
          rw [decide_eq_true_eq]
          exact lt_of_le_of_lt (hlole _ (List.mem_map_of_mem (f := fun p : (Fin d → K) × K => top - p.2) hp)) hk
      classical
      obtain ⟨k, hk, hkmin⟩ : ∃ k : ℕ, min d tr.length ≤ (select delta tr (s + k / 10)).length ∧
          ∀ i, i < k → (select delta tr (s + i / 10)).length < min d tr.length :=
        ⟨Nat.find hex, Nat.find_spec hex, fun i hi => not_le.1 (Nat.find_min hex hi)⟩
      refine ⟨k + 2, select delta tr (s + k / 10), fun fuel hfu => loop_ends delta tr k s [] (by simpa using hmin) hkmin hk fuel hfu,
        by rw [hsel]; exact List.filter_sublist, hk, ?_, fun h => (by cases h), ?_⟩
      · intro p hp q hq hpq
        rw [hsel, List.mem_filter, decide_eq_true_eq] at hp ⊢
        exact ⟨hq, by linarith [hp.2]⟩
      · intro s' hs'
        cases hs'
        have hs0 : s ≤ s + (k : K) / 10 := by
          have : (0 : K) ≤ (k : K) / 10 := by positivity
          linarith
        constructor
        · intro p hp hq
          rw [hsel, List.mem_filter, decide_eq_true_eq]
          exact ⟨hp, lt_of_lt_of_le ((hall p _).2 hq) (hmono hs0)⟩
        · intro h
          rw [← hselall] at h ⊢
          have hk0 : k = 0 := by
            by_contra hk0
            have := hkmin 0 (Nat.pos_of_ne_zero hk0)
            simp only [Nat.cast_zero, zero_div, add_zero] at this
            omega
          rw [hk0]
          simp
  obtain ⟨N, use, hrun, hsub, hlen, hup, hnone, hsome⟩ := huse
  have hune : use ≠ [] := by
    intro h; rw [h, List.length_nil] at hlen; omega
  have hmapne : ∀ j : Fin d, (use.map Prod.fst).map (· j) ≠ [] := by intro j; simpa using hune
  obtain ⟨b, hb⟩ : ∃ b, b = fun j => (match Tools.shrinkBounds f (bounds j) ((use.map Prod.fst).map (· j)) with
    | .ok b => b
    | .error _ => bounds j) := ⟨_, rfl⟩
  refine ⟨N, b, use, ?_, ?_, hsub, hlen, ?_, hup, hnone, hsome, ?_⟩
  · intro fuel hfu
    unfold updateTrust
    simp only [hrun fuel hfu]
    unfold shrink
    rw [if_neg (by simp [hune]), hb]
    rfl
  · intro j
    obtain ⟨lo, hi, h1, h2, h3, _⟩ := Tools.C45_shrink_partial (bounds j) (hmapne j) f hf
    rw [hb]; simp only [h1]
    exact ⟨h2, h3⟩
  · intro p hp j hl hr
    obtain ⟨lo, hi, h1, h2, h3, h4, _⟩ := Tools.C45_shrink_partial (bounds j) (hmapne j) f hf
    rw [hb]; simp only [h1]
    refine h4 (p.1 j) ?_ hl hr
    rw [List.map_map]
    exact List.mem_map_of_mem (f := (fun x : Fin d → K => x j) ∘ Prod.fst) hp
  · intro j
    obtain ⟨lo, hi, hlo, hhi, hall', heq⟩ := Tools.shrink_eq f (bounds j) (hmapne j)
    rw [List.map_map] at hlo hhi
    obtain ⟨p, hp, rfl⟩ := List.mem_map.1 hlo
    obtain ⟨q, hq, rfl⟩ := List.mem_map.1 hhi
    refine ⟨p, hp, q, hq, ?_⟩
    rw [hb]; simp only [heq f, Function.comp]
    have h1 := le_max_left (p.1 j - (f - 1) / 2 * (q.1 j - p.1 j)) (bounds j).1
    have h2 := min_le_left (q.1 j + (f - 1) / 2 * (q.1 j - p.1 j)) (bounds j).2
    have : f * (q.1 j - p.1 j) = (q.1 j + (f - 1) / 2 * (q.1 j - p.1 j)) - (p.1 j - (f - 1) / 2 * (q.1 j - p.1 j)) := by ring
    linarith

/-- C21: without training points there is an exception. -/
theorem C21_empty {d : ℕ} (hd : 0 < d) (delta : K → K) (bounds : Fin d → K × K) (f : K) (nstd : Option K)
    (old : Option (Fin d → K × K)) (fuel : ℕ) :
    updateTrust delta bounds (some f) nstd [] old (fuel + 1) = some (.error .valueError) := by
  cases nstd <;> simp [updateTrust, used, loop, shrink, hd]

/-- C21: without a factor nothing is done. -/
theorem C21_no_factor {d : ℕ} (delta : K → K) (bounds : Fin d → K × K) (nstd : Option K) (tr : List ((Fin d → K) × K))
    (old : Option (Fin d → K × K)) (fuel : ℕ) : updateTrust delta bounds none nstd tr old fuel = some (.ok old) := rfl

/-- C21: the threshold is raised twice until two points are close enough to the maximum. -/
example : (updateTrust (K := ℚ) (d := 2) id (fun _ => (0, 10)) (some 2) (some 1) [(![1, 2], 5), (![3, 3], 4), (![9, 9], 0)] none 5).map
    (fun r => match r with | .ok (some b) => (b 0, b 1) | _ => ((0, 0), (0, 0))) = some ((0, 4), (3 / 2, 7 / 2)) := by
  decide +kernel

/-- C21: the hypotheses on the threshold function are satisfiable. -/
example : Monotone (id : ℚ → ℚ) ∧ ∀ B : ℚ, ∃ k : ℕ, B < id (1 + (k : ℚ) / 10) := by
  refine ⟨monotone_id, fun B => ?_⟩
  obtain ⟨k, hk⟩ := exists_nat_gt (10 * B)
  exact ⟨k, by simp only [id]; linarith⟩

/-- C21: the third point is too low for the region, the first two are inside it. -/
example : ∃ (N : ℕ) (b : Fin 2 → ℚ × ℚ), (∀ fuel, N ≤ fuel →
      updateTrust id (fun _ => (0, 10)) (some 2) (some 1) [(![1, 2], 5), (![3, 3], 9 / 2), (![9, 9], 0)] none fuel = some (.ok (some b))) ∧
    (b 0).1 ≤ 1 ∧ 3 ≤ (b 0).2 ∧ (b 0).2 ≤ 10 := by
  obtain ⟨N, b, use, h, hb, -, -, hin, -, -, hs, -⟩ := C21_trust (d := 2) (by decide) (id : ℚ → ℚ) (fun _ => (0, 10)) 2 (by norm_num) (some 1) monotone_id
    (fun s hs B => by
      cases hs
      obtain ⟨k, hk⟩ := exists_nat_gt (10 * B)
      exact ⟨k, by simp only [id]; linarith⟩) [(![1, 2], 5), (![3, 3], 9 / 2), (![9, 9], 0)] (by simp) none
  have h1 : (![1, 2], 5) ∈ use := (hs 1 rfl).1 _ (by simp) (by simp; norm_num)
  have h2 : (![3, 3], 9 / 2) ∈ use := (hs 1 rfl).1 _ (by simp) (by simp; norm_num)
  exact ⟨N, b, h, (hin _ h1 0 (by norm_num) (by norm_num)).1, (hin _ h2 0 (by norm_num) (by norm_num)).2, (hb 0).2⟩

example : updateTrust (id : ℚ → ℚ) (fun _ : Fin 2 => (0, 10)) (some 2) (some 1) [] none 7 = some (.error .valueError) :=
  C21_empty (by decide) _ _ _ _ _ 6

end GPry.Trust
