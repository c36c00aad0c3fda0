import Verif.XNumberProps

set_option linter.all false

/-!
# `get_Xnumber` without the value of the unit

tools.py:185-234 with `X_value=None`, as used for `inf_threshold` (gpr.py:319-321).
-/

namespace GPry.Tools

section
variable {K : Type*} [Field K] [LinearOrder K]

/-- tools.py:198-223, `get_Xnumber(value, letter, None, dtype)`: the number, whether it is in units of `X`, the power. `parse` is Python's `float` of a string. The
conversion to the type comes before the power is read. (`letter` one allowed character, and `dtype` `int` or `float`.) -/
def getXparts (parse : List Char → Option (Ext K)) (letter : Char) (asInt : Bool) (trunc : K → K) : Val K → Except TErr (Ext K × Bool × Option (Ext K))
  | .other => .error .valueError
  | .num v => (toDtype asInt trunc v).map fun n => (n, false, none)
  | .str s =>
    let s := if s = [letter] then ['1', letter] else s
    if letter ∈ s then
      match split letter s with
      | [a, p] =>
        match (if a = [] then some (.fin 1) else parse a) with
        | none => .error .valueError
        | some n =>
          match toDtype asInt trunc n with
          | .error e => .error e
          | .ok n =>
            if p = [] then .ok (n, true, none)
            else match parse p with
              | none => .error .valueError
              | some q => .ok (n, true, some q)
      | _ => .error .valueError
    else match parse s with
      | none => .error .valueError
      | some n => (toDtype asInt trunc n).map fun n => (n, false, none)

end

variable {K : Type*} [Field K] [LinearOrder K] [IsStrictOrderedRing K]

/-- **C173**: as floats, the value for a given unit is what one gets from the parts, for every value of the unit; and one raises an exception if and only if the other
does, and the same one. -/
theorem C173_product (parse : List Char → Option (Ext K)) (pow : Ext K → Ext K) (letter : Char) (X : Ext K) (trunc : K → K) (v : Val K) :
    getXnumber parse pow letter X false trunc v =
      match getXparts parse letter false trunc v with
      | .error e => .error e
      | .ok (n, false, _) => .ok n
      | .ok (n, true, none) => .ok (mulE n X)
      | .ok (n, true, some q) => .ok (mulE n (pow q)) := by
  have hd : ∀ w : Ext K, toDtype false trunc w = .ok w := by intro w; cases w <;> rfl
  cases v with
  | other => rfl
  | num v => simp [getXnumber, getXparts, hd, mulE_one, Except.map]
  | str s =>
    unfold getXnumber getXparts
    dsimp only
    simp only [hd, mulE_one, Except.map]
    generalize (if s = [letter] then ['1', letter] else s) = s'
    split_ifs with h
    · rcases split letter s' with - | ⟨a, - | ⟨p, - | ⟨r, l⟩⟩⟩
      · rfl
      · rfl
      · dsimp only
        generalize (if a = [] then some (.fin 1 : Ext K) else parse a) = o
        rcases o with - | n
        · rfl
        · dsimp only
          by_cases hp : p = []
          · rw [if_pos hp, if_pos hp]
          · rw [if_neg hp, if_neg hp]
            rcases parse p with - | q <;> rfl
      · rfl
    · rcases parse s' with - | n <;> rfl

/-- **C173**: what is read from `aX`, `aXp` and from a number without unit, as floats. -/
theorem C173_read (parse : List Char → Option (Ext K)) (letter : Char) (trunc : K → K) {a : List Char} (ha : letter ∉ a) (hne : a ≠ []) {n : Ext K}
    (hn : parse a = some n) :
    getXparts parse letter false trunc (.str (a ++ [letter])) = .ok (n, true, none) ∧
    (∀ p q, p ≠ [] → letter ∉ p → parse p = some q → getXparts parse letter false trunc (.str (a ++ letter :: p)) = .ok (n, true, some q)) ∧
    getXparts parse letter false trunc (.str a) = .ok (n, false, none) ∧
    getXparts parse letter false trunc (.num n) = .ok (n, false, none) := by
  have hd : ∀ w : Ext K, toDtype false trunc w = .ok w := by intro w; cases w <;> rfl
  have hl : ∀ p, a ++ letter :: p ≠ [letter] := by
    intro p he
    cases a with
    | nil => exact hne rfl
    | cons c a => simp at he
  refine ⟨?_, fun p q hp hlp hq => ?_, ?_, ?_⟩
  · unfold getXparts
    dsimp only
    rw [if_neg (hl []), if_pos (by simp), split_one ha (by simp)]
    simp [hne, hn, hd]
  · unfold getXparts
    dsimp only
    rw [if_neg (hl p), if_pos (by simp), split_one ha hlp]
    simp [hne, hn, hd, hp, hq]
  · unfold getXparts
    dsimp only
    have hs : a ≠ [letter] := by rintro rfl; simp at ha
    rw [if_neg hs, if_neg ha, hn]
    simp [hd, Except.map]
  · simp [getXparts, hd, Except.map]

/-- **C173**: the letter alone is one unit. -/
theorem C173_letter (parse : List Char → Option (Ext K)) (letter : Char) (hl : letter ≠ '1') (h1 : parse ['1'] = some (.fin 1)) (trunc : K → K) :
    getXparts parse letter false trunc (.str [letter]) = .ok (.fin 1, true, none) := by
  unfold getXparts
  dsimp only
  rw [if_pos rfl, if_pos (by simp), show ['1', letter] = ['1'] ++ letter :: [] from rfl, split_one (by simpa using hl) (by simp)]
  simp [h1, toDtype]

/-! ## Integers -/

/-- Reads "2.5". -/
def cxParse (s : List Char) : Option (Ext ℚ) := if s = ['2', '.', '5'] then some (.fin (5 / 2)) else exParse s

/-- **C173** is false of integers: the number is converted before it could be multiplied, `2.5d` with `d = 4` is 10, and its parts are 2 and one unit. -/
theorem C173_int_counterexample (pow : Ext ℚ → Ext ℚ) :
    getXnumber cxParse pow 'd' (.fin 4) true (fun v => (v.floor : ℚ)) (.str ['2', '.', '5', 'd']) = .ok (.fin 10) ∧
    getXparts cxParse 'd' true (fun v => (v.floor : ℚ)) (.str ['2', '.', '5', 'd']) = .ok (.fin 2, true, none) ∧ mulE (.fin 2) (.fin 4) ≠ (.fin 10 : Ext ℚ) := by
  refine ⟨?_, by decide +kernel, by decide +kernel⟩
  rw [show ['2', '.', '5', 'd'] = ['2', '.', '5'] ++ 'd' :: [] from rfl, (C48_finite cxParse pow 'd' (.fin 4) (fun v => (v.floor : ℚ)) (n := 5 / 2) (z := 4) (q := .fin 1) (by decide)
    (by decide) (by decide +kernel) (fun h => absurd rfl h) rfl (by decide +kernel) (by decide)).2]
  decide +kernel

/-! ## Examples -/

/-- `12s`, `2s3`, `12`. -/
example : getXparts exParse 's' false id (.str ['1', '2', 's']) = .ok (.fin 12, true, none) ∧
    getXparts exParse 's' false id (.str ['1', '2', 's', '3']) = .ok (.fin 12, true, some (.fin 3)) ∧
    getXparts exParse 's' false id (.str ['1', '2']) = .ok (.fin 12, false, none) :=
  have h := C173_read exParse 's' id (a := ['1', '2']) (by decide) (by decide) (n := .fin 12) (by decide +kernel)
  ⟨h.1, h.2.1 ['3'] (.fin 3) (by decide) (by decide) (by decide +kernel), h.2.2.1⟩

example : getXparts exParse 's' false id (.str ['s']) = .ok (.fin 1, true, none) := C173_letter exParse 's' (by decide) (by decide +kernel) id

/-- `2s3` for a unit whose third power is 64. -/
example : getXnumber exParse exPow 's' (.fin 4) false id (.str ['2', 's', '3']) = .ok (.fin 128) := by
  rw [C173_product]
  decide +kernel

end GPry.Tools
