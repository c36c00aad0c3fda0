import Verif.Ext
import Mathlib.Data.List.Basic
import Mathlib.Data.List.Count
import Mathlib.Algebra.Order.Field.Basic
import Mathlib.Algebra.BigOperators.Group.List.Basic

set_option linter.all false

/-!
# Tools (tools.py, ns_interfaces.py:process_out_dir)

Models tools.py:164-182 (`NumpyErrorHandling`), 185-234 (`get_Xnumber`), 237-260 (`check_candidates`), 263-289
(`is_in_bounds`), 308-361 (`shrink_bounds`), 400-418 (`remove_0_weight_samples`); ns_interfaces.py:76-99
(`process_out_dir`).
-/

namespace GPry.Tools

/-- Exceptions. -/
inductive TErr
  | valueError | typeError | overflowError
deriving DecidableEq, Repr

/-! ## Bounds -/

section Bounds
variable {K : Type*} [Field K] [LinearOrder K]

/-- tools.py:289, one point: `np.all((points >= bounds[:, 0]) & (points <= bounds[:, 1]))`.
Bounds as pairs; both lists have the same length (numpy would broadcast or raise otherwise). -/
def isInBounds (bounds : List (Ext K × Ext K)) (x : List (Ext K)) : Bool :=
  (List.zipWith (fun v b => v.ge b.1 && v.le b.2) x bounds).all id

/-- `samples.min(axis=0)`, one coordinate (finite numbers). -/
def minOf : List K → Option K
  | [] => none
  | a :: l => some (l.foldl min a)

def maxOf : List K → Option K
  | [] => none
  | a :: l => some (l.foldl max a)

/-- tools.py:344-360 `shrink_bounds`, one coordinate: bounds, the coordinates of the samples, factor. numpy raises
`ValueError` if there are no samples. -/
def shrinkBounds (factor : K) (b : K × K) (xs : List K) : Except TErr (K × K) :=
  match minOf xs, maxOf xs with
  | some lo, some hi =>
    let delta := (factor - 1) / 2 * (hi - lo)
    .ok (max (lo - delta) b.1, min (hi + delta) b.2)
  | _, _ => .error .valueError

end Bounds

/-! ## Samples without weight -/

section Weights
variable {K A : Type*} [Zero K] [DecidableEq K]

/-- `np.delete(array, np.where(weights == 0)[0], axis=0)`, for arrays of the same length (NaN weights: not modelled). -/
def dropZero (w : List K) (xs : List A) : List A := ((w.zip xs).filter fun q => q.1 ≠ 0).map Prod.snd

/-- tools.py:400-418 `remove_0_weight_samples`. -/
def remove0 (w : List K) (arrays : List (Option (List A))) : Except TErr (List K × List (Option (List A))) :=
  if arrays.any (fun a => match a with | none => false | some xs => xs.length != w.length) then .error .valueError
  else .ok (w.filter (· ≠ 0), arrays.map fun a => a.map (dropZero w))

end Weights

/-! ## Candidates -/

section Candidates
variable {K : Type*} [DecidableEq K]

/-- tools.py:251: is the rounded point one of the rounded training points? -/
def inTraining (rnd : K → K) (train : List (List K)) (x : List K) : Bool :=
  (train.map (List.map rnd)).any (· == x.map rnd)

/-- tools.py:253-259: row `j` of the rounded candidates is flagged as duplicate if every coordinate of it appears
somewhere in the rows that appear more than once, and it is not the first of those. -/
def dupFlag (rows : List (List K)) (j : ℕ) : Bool :=
  let row := rows.getD j []
  let repeated := rows.filter fun r => 1 < rows.count r
  row.all (fun c => repeated.any fun r => r.contains c) && !(decide (1 < rows.count row) && rows.idxOf row == j)

/-- tools.py:237-260 `check_candidates`: transformed training points `X_train_` (only those classified as finite),
transformed candidates, rounding function. -/
def checkCandidates (rnd : K → K) (train cands : List (List K)) : List Bool × List Bool :=
  let rows := cands.map (List.map rnd)
  (cands.map (inTraining rnd train), (List.range cands.length).map (dupFlag rows))

/-- run.py:858, 876-878: the candidates that are kept. -/
def keep (rnd : K → K) (train cands : List (List K)) : List (List K) :=
  let q := checkCandidates rnd train cands
  ((cands.zip (q.1.zip q.2)).filter fun c => !(c.2.1 || c.2.2)).map Prod.fst

end Candidates

/-! ## Numbers in units of the dimension -/

section XNumber
variable {K : Type*} [Field K] [LinearOrder K]

/-- A value given by the user. -/
inductive Val (K : Type*)
  | num (v : Ext K)
  | str (s : List Char)
  | other

/-- `str.split(letter)`. -/
def split (letter : Char) : List Char → List (List Char)
  | [] => [[]]
  | c :: s => if c = letter then [] :: split letter s else
    match split letter s with
    | [] => [[c]]
    | t :: ts => (c :: t) :: ts

/-- Product of floats (signs of infinities not needed here: only used with what the user gives). -/
def mulE [DecidableEq K] : Ext K → Ext K → Ext K
  | .fin a, .fin b => .fin (a * b)
  | .nan, _ => .nan
  | _, .nan => .nan
  | .fin a, i => if a = 0 then .nan else if 0 < a then i else i.neg
  | i, .fin b => if b = 0 then .nan else if 0 < b then i else i.neg
  | .posInf, i => i
  | .negInf, i => i.neg

/-- `dtype(x)`: `int` truncates towards zero and refuses what is not a number; `float` does nothing. -/
def toDtype (asInt : Bool) (trunc : K → K) : Ext K → Except TErr (Ext K)
  | .fin v => .ok (.fin (if asInt then trunc v else v))
  | .nan => if asInt then .error .valueError else .ok .nan
  | i => if asInt then .error .overflowError else .ok i

/-- tools.py:205-234, `get_Xnumber(value, letter, X, dtype)` with `X` given. `parse` is Python's `float` of a string,
`pow` is `X ** p`. (`letter` one allowed character.) -/
def getXnumber [DecidableEq K] (parse : List Char → Option (Ext K)) (pow : Ext K → Ext K) (letter : Char) (X : Ext K)
    (asInt : Bool) (trunc : K → K) : Val K → Except TErr (Ext K)
  | .other => .error .valueError
  | .num v => toDtype asInt trunc (mulE v (.fin 1))
  | .str s =>
    let s := if s = [letter] then ['1', letter] else s
    if letter ∈ s then
      match split letter s with
      | [a, p] =>
        match (if a = [] then some (.fin 1) else parse a) with
        | none => .error .valueError
        | some n =>
          if p = [] then toDtype asInt trunc (mulE n X)
          else match parse p with
            | none => .error .valueError
            | some q => toDtype asInt trunc (mulE n (pow q))
      | _ => .error .valueError
    else match parse s with
      | none => .error .valueError
      | some n => toDtype asInt trunc (mulE n (.fin 1))

end XNumber

/-! ## numpy's error state -/

section ErrState

/-- A mode (`'ignore'`, `'warn'`, `'raise'`, …), by number. -/
abbrev Mode := ℕ

/-- What `np.geterr()` returns. -/
structure ErrState where
  divide : Mode
  over : Mode
  under : Mode
  invalid : Mode
deriving DecidableEq, Repr

/-- `np.seterr(all=m)` -/
def seterrAll (m : Mode) (_ : ErrState) : ErrState := ⟨m, m, m, m⟩

/-- `np.seterr(**d)` with a dictionary from `np.geterr()` -/
def seterrDict (d : ErrState) (_ : ErrState) : ErrState := ⟨d.divide, d.over, d.under, d.invalid⟩

/-- The object: attributes `all` and `error_handler` (tools.py:172-174). -/
structure Handler where
  all : Mode
  saved : ErrState

/-- tools.py:172-174 `__init__`. -/
def Handler.init (m : Mode) (s : ErrState) : Handler := ⟨m, s⟩
/-- tools.py:176-177 `__enter__`. -/
def Handler.enter (h : Handler) (s : ErrState) : ErrState := seterrAll h.all s
/-- tools.py:179-182 `__exit__`: state, and whether an exception goes on (bare `raise`, or a false return value). -/
def Handler.exit (h : Handler) (raised : Bool) (s : ErrState) : ErrState × Bool := (seterrDict h.saved s, raised)

/-- Programs that use the error state: bare `np.seterr(all=m)`, numerical work that raises depending on the state,
`with NumpyErrorHandling(all=m): …`, sequences, `try: … except: …`, `raise`. -/
inductive Code
  | skip
  | raise
  | seterr (m : Mode)
  | work (fails : ErrState → Bool)
  | withErr (m : Mode) (body : Code)
  | seq (a b : Code)
  | tryExcept (a b : Code)

/-- State after running a program, and whether an exception comes out of it. -/
def Code.run : Code → ErrState → ErrState × Bool
  | skip, s => (s, false)
  | raise, s => (s, true)
  | seterr m, s => (seterrAll m s, false)
  | work f, s => (s, f s)
  | withErr m body, s =>
    let h := Handler.init m s
    let r := body.run (h.enter s)
    h.exit r.2 r.1
  | seq a b, s =>
    let r := a.run s
    if r.2 then r else b.run r.1
  | tryExcept a b, s =>
    let r := a.run s
    if r.2 then b.run r.1 else r

/-- No bare `seterr`, except inside of `with` blocks. -/
def Code.scoped : Code → Prop
  | skip | raise | work _ | withErr _ _ => True
  | seterr _ => False
  | seq a b | tryExcept a b => a.scoped ∧ b.scoped

end ErrState

/-! ## Output directories -/

section OutDir

/-- `rstrip('/')` -/
def rstrip (s : List Char) : List Char := (s.reverse.dropWhile (· = '/')).reverse

/-- `os.path.split` (posix): the part up to the last slash (stripped of slashes unless it is only slashes), the rest. -/
def osSplit (s : List Char) : List Char × List Char :=
  let tail := (s.reverse.takeWhile (· ≠ '/')).reverse
  let head := (s.reverse.dropWhile (· ≠ '/')).reverse
  (if head.all (· = '/') then head else rstrip head, tail)

/-- ns_interfaces.py:76-99 `process_out_dir` for a given path; `abs` is `os.path.abspath`. -/
def processOutDir (abs : List Char → List Char) (dflt : List Char) (path : List Char) : List Char × List Char :=
  let q := osSplit path
  let q := if q.1 = [] then (q.2, []) else q
  (abs q.1, if q.2 = [] then dflt else q.2)

end OutDir

end GPry.Tools
