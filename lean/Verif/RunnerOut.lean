import Verif.Truth
import Verif.Cobaya

set_option linter.all false

/-!
# Wrappers and messages of `Runner` (gpry/run.py:615-721) and creation of directories (gpry/io.py:25-38)

Strings are lists of characters. What `print` receives is returned. The file system is the list of the directories that exist;
paths use `/`, and a relative path is its own name (the working directory does not change).
-/

namespace GPry.RunnerOut

open GPry Truth

abbrev Str := List Char

/-! ## The surrogate posterior and likelihood -/

/-- The argument `X`: one point, or a list with at least one. -/
inductive Pts
  | one (x : List (Ext ℝ))
  | many (x : List (Ext ℝ)) (xs : List (List (Ext ℝ)))

/-- `np.atleast_2d` -/
def Pts.rows : Pts → List (List (Ext ℝ))
  | .one x => [x]
  | .many x xs => x :: xs

/-- run.py:615-624 `logp`; `mean` is the prediction of the regressor at one point. -/
def logp (mean : List (Ext ℝ) → Ext ℝ) (X : Pts) : List (Ext ℝ) := X.rows.map mean

/-- truth.py:134-140 with such an argument: `is_in_bounds` returns one boolean per row, and `not` of an array with several elements
raises `ValueError`. Rows have as many entries as there are bounds (numpy would otherwise raise, or repeat a single entry). -/
noncomputable def logprior (t : Truth) (X : Pts) : Except Truth.Err (Ext ℝ) :=
  match X.rows with
  | [x] => .ok (Truth.logprior t x)
  | _ => .error .valueError

/-- run.py:626-632 `logL` -/
noncomputable def logL (mean : List (Ext ℝ) → Ext ℝ) (t : Truth) (X : Pts) : Except Truth.Err (List (Ext ℝ)) :=
  match logprior t X with
  | .ok lp => .ok ((logp mean X).map fun m => add m lp.neg)
  | .error e => .error e

/-! ## Messages -/

/-- run.py:670-676 `log` -/
def log (verbose : ℤ) (msg : Str) (level : Option ℤ) : List Str :=
  match level with
  | none => [msg]
  | some l => if l ≤ verbose then [msg] else []

/-- Leading newlines removed. -/
def lstrip : Str → Str
  | [] => []
  | c :: s => if c = '\n' then lstrip s else c :: s

/-- `text.strip("\n")` -/
def strip (s : Str) : Str := (lstrip (lstrip s).reverse).reverse

/-- `text.split("\n")` -/
def split : Str → List Str
  | [] => [[]]
  | c :: s =>
    if c = '\n' then [] :: split s
    else match split s with
      | l :: ls => (c :: l) :: ls
      | [] => [[c]]

/-- `header` and `footer`: a string, or something else with its truth value. -/
inductive Rule
  | str (s : Str)
  | other (truthy : Bool)
deriving DecidableEq

/-- run.py:705-709 and 718-721 -/
def ruleLine (w : ℕ) : Rule → List Str
  | .str [] => []
  | .str s => [(List.replicate w s).flatten]
  | .other false => []
  | .other true => [List.replicate w '=']

/-- run.py:712-716 -/
def bodyLine (w : ℕ) (pre suf line : Str) : Str :=
  let l := pre ++ line
  if l.length + suf.length ≤ w then l ++ List.replicate (w - l.length - suf.length) ' ' ++ suf else l

/-- run.py:702-721 `banner`, what is printed -/
def banner (verbose : ℤ) (text : Str) (w : ℕ) (pre suf : Str) (header footer : Rule) (level : Option ℤ) : List Str :=
  (ruleLine w header ++ (split (strip text)).map (bodyLine w pre suf) ++ ruleLine w footer).flatMap fun l => log verbose l level

/-! ## Directories -/

/-- `os.path.join(a, b)` with `b` relative -/
def join (a b : Str) : Str :=
  match a.reverse with
  | [] => b
  | c :: _ => if c = '/' then a ++ b else a ++ '/' :: b

/-- The directories above a path: what precedes each `/` (other than an initial one). -/
def parents (p : Str) : List Str :=
  (List.range p.length).filterMap fun i => if p[i]? = some '/' ∧ 0 < i then some (p.take i) else none

abbrev FS := List Str

/-- `os.makedirs(path)` of a path that does not exist -/
def makedirs (fs : FS) (p : Str) : FS := fs ++ ((parents p).filter fun q => !fs.contains q) ++ [p]

/-- io.py:25-38 `create_path`: the directories that exist afterwards, and the paths announced. -/
def createPath (fs : FS) (p : Str) (verbose : Bool) : FS × List Str :=
  if fs.contains p then (fs, []) else (makedirs fs p, if verbose then [p] else [])

/-- `_plots_path` -/
def images : Str := "images".toList

/-- run.py:682-685: the attribute `plots_path`. -/
def plotsPath : Option Str → Str
  | some c => join c images
  | none => images

/-- run.py:678-690 `ensure_paths`: the directories that exist afterwards, and the paths announced. -/
def ensurePaths (main : Bool) (checkpoint : Option Str) (verbose : ℤ) (plots : Bool) (fs : FS) : FS × List Str :=
  if main then
    let r := match checkpoint with
      | some (c :: cs) => createPath fs (c :: cs) (decide (3 ≤ verbose))
      | _ => (fs, [])
    if plots then
      let q := createPath r.1 (plotsPath checkpoint) (decide (3 ≤ verbose))
      (q.1, r.2 ++ q.2)
    else r
  else (fs, [])

end GPry.RunnerOut
