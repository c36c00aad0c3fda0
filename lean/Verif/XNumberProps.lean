import Verif.ToolsProps

set_option linter.all false

/-!
# The values of `get_Xnumber`, as floats and as integers

No definitions of the code: tools.py:205-234 is `getXnumber` of `Tools.lean`.
-/

namespace GPry.Tools

variable {K : Type*} [Field K] [LinearOrder K] [IsStrictOrderedRing K]

/-- **C48**: for finite `a` and a finite power `z` of `X`, `aXp` is the number `a * z` as a float, and the same number without its fractional part as an integer. -/
theorem C48_finite (parse : List Char → Option (Ext K)) (pow : Ext K → Ext K) (letter : Char) (X : Ext K) (trunc : K → K) {a p : List Char} (ha : letter ∉ a)
    (hp : letter ∉ p) {n z : K} {q : Ext K} (hn : if a = [] then n = 1 else parse a = some (.fin n)) (hq : p ≠ [] → parse p = some q)
    (hz : (if p = [] then X else pow q) = .fin z) (h1 : parse ['1'] = some (.fin 1)) (hl : letter ≠ '1') :
    getXnumber parse pow letter X false trunc (.str (a ++ letter :: p)) = .ok (.fin (n * z)) ∧
    getXnumber parse pow letter X true trunc (.str (a ++ letter :: p)) = .ok (.fin (trunc (n * z))) := by
  have hn' : if a = [] then (.fin n : Ext K) = .fin 1 else parse a = some (.fin n) := by
    split_ifs at hn ⊢ with h
    · rw [hn]
    · exact hn
  rw [C48_value ha hp hn' hq h1 hl, C48_value ha hp hn' hq h1 hl, hz]
  exact ⟨rfl, rfl⟩

/-- **C48**: a plain finite number, or a string that is one, is returned as a float, and without its fractional part as an integer. -/
theorem C48_plain_finite (parse : List Char → Option (Ext K)) (pow : Ext K → Ext K) (letter : Char) (X : Ext K) (trunc : K → K) (v : K) :
    (getXnumber parse pow letter X false trunc (.num (.fin v)) = .ok (.fin v) ∧ getXnumber parse pow letter X true trunc (.num (.fin v)) = .ok (.fin (trunc v))) ∧
    ∀ s, letter ∉ s → parse s = some (.fin v) →
      getXnumber parse pow letter X false trunc (.str s) = .ok (.fin v) ∧ getXnumber parse pow letter X true trunc (.str s) = .ok (.fin (trunc v)) := by
  refine ⟨?_, fun s hs hv => ?_⟩
  · simp [getXnumber, mulE, toDtype]
  · rw [(C48_plain (.fin v) hs hv).2, (C48_plain (.fin v) hs hv).2]
    exact ⟨rfl, rfl⟩

/-- `2d3` with `d = 4`, of a function that reads digits. -/
example : getXnumber exParse exPow 'd' (.fin 4) true (fun v => (v.floor : ℚ)) (.str ['2', 'd', '3']) = .ok (.fin 128) := by
  rw [show ['2', 'd', '3'] = ['2'] ++ 'd' :: ['3'] from rfl, (C48_finite exParse exPow 'd' (.fin 4) (fun v => (v.floor : ℚ)) (n := 2) (z := 64) (q := .fin 3) (by decide) (by decide)
    (by decide +kernel) (fun _ => by decide +kernel) (by decide +kernel) (by decide +kernel) (by decide)).2]
  decide +kernel

/-- 5/2 as a float and as an integer. -/
example : getXnumber exParse exPow 'd' (.fin 4) false (fun v => (v.floor : ℚ)) (.num (.fin (5 / 2))) = .ok (.fin (5 / 2)) ∧
    getXnumber exParse exPow 'd' (.fin 4) true (fun v => (v.floor : ℚ)) (.num (.fin (5 / 2))) = .ok (.fin 2) := by
  have := (C48_plain_finite exParse exPow 'd' (.fin 4) (fun v => (v.floor : ℚ)) (5 / 2)).1
  refine ⟨this.1, this.2.trans ?_⟩
  decide +kernel

end GPry.Tools
