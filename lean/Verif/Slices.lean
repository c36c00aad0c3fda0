import Verif.Cobaya

set_option linter.all false

/-!
# Preparation of plots (gpry/plots.py 33-161, 747-812)

The parts of `plots.py` that compute something before drawing: slices of a function, the reference values shown in trace plots,
and numbers in scientific notation. Drawing is not modelled.

Exact arithmetic over a field. A function called at a point gives a value, raises `TypeError`, or raises something else.
-/

namespace GPry.Slices

open GPry.Cobaya (Dict Str)

inductive Err
  | valueError | typeError | keyError | indexError
deriving DecidableEq, Repr

/-- Position in an array of length `len` of the index `i` of Python (negative ones count from the end). -/
def pyPos (len : ℕ) (i : ℤ) : Option ℕ :=
  if 0 ≤ i then (if i < len then some i.toNat else none)
  else if 0 ≤ (len : ℤ) + i then some ((len : ℤ) + i).toNat
  else none

section slices

variable {K : Type*} [Field K] {Y : Type*}

/-- `np.linspace(lo, hi, n)` -/
def linspace (lo hi : K) (n : ℕ) : List K := (List.range n).map fun k : ℕ => lo + (k : K) * ((hi - lo) / ((n : K) - 1))

/-- plots.py:49-61 `param_samples_for_slices`, for one point. -/
def sliceRows (x : List K) (i : ℤ) (b : K × K) (n : ℕ) : Except Err (List (List K)) :=
  match pyPos x.length i with
  | none => .error .indexError
  | some p => .ok ((linspace b.1 b.2 n).map fun v => x.set p v)

inductive Out (Y : Type*)
  | val (y : Y) | typeError | other

/-- plots.py:140-160: values along a slice, `none` for NaN. -/
def evalRow (f : List K → Out Y) : List (List K) → Except Err (List (Option Y))
  | [] => .ok []
  | x :: xs =>
    match f x with
    | .typeError => .error .typeError
    | .val y =>
      match evalRow f xs with
      | .ok ys => .ok (some y :: ys)
      | .error e => .error e
    | .other =>
      match evalRow f xs with
      | .ok ys => .ok (none :: ys)
      | .error e => .error e

/-- plots.py:137-160: the loop over the indices. -/
def loop (f : List K → Out Y) (x : List K) (bounds : List (K × K)) (n : ℕ) : List ℤ → Except Err (List (List (List K)) × List (List (Option Y)))
  | [] => .ok ([], [])
  | i :: is =>
    match pyPos bounds.length i with
    | none => .error .indexError
    | some q =>
      match bounds[q]? with
      | none => .error .indexError
      | some b =>
        match sliceRows x i b n with
        | .error e => .error e
        | .ok rows =>
          match evalRow f rows with
          | .error e => .error e
          | .ok ys =>
            match loop f x bounds n is with
            | .error e => .error e
            | .ok (xss, yss) => .ok (rows :: xss, ys :: yss)

/-- `[params[i] for i in indices]` -/
def names (params : List String) : List ℤ → Except Err (List String)
  | [] => .ok []
  | i :: is =>
    match pyPos params.length i with
    | none => .error .indexError
    | some p =>
      match params[p]?, names params is with
      | some s, .ok l => .ok (s :: l)
      | none, _ => .error .indexError
      | _, .error e => .error e

/-- What `prepare_slices_func` returns: indices, names, points, values. -/
structure Slices (K Y : Type*) where
  indices : List ℤ
  params : List String
  Xs : List (List (List K))
  ys : List (List (Option Y))

/-- plots.py:96-161 `prepare_slices_func`, with the point as a list (118-133). -/
def prepareList (f : List K → Out Y) (x : List K) (bounds : List (K × K)) (indices : Option (List ℤ)) (n : ℤ) : Except Err (Slices K Y) :=
  -- tools.py:146-161 `generic_params_names`
  if x.length = 0 then .error .typeError
  else
    let params := Truth.generic "x_" x.length
    let is := indices.getD ((List.range x.length).map fun i : ℕ => (i : ℤ))
    if is.any (fun i => !decide (i < x.length)) then .error .valueError
    else if bounds.length < params.length then .error .valueError
    else if n < 2 then .error .valueError
    else
      match loop f x bounds n.toNat is with
      | .error e => .error e
      | .ok (xss, yss) =>
        match names params is with
        | .error e => .error e
        | .ok ps => .ok ⟨is, ps, xss, yss⟩

/-- The argument `bounds` given together with a dictionary of values. -/
inductive DBounds (K : Type*)
  | map (m : Dict Str (K × K))
  | seq (l : List (K × K))

/-- plots.py:97-117, with the point as a dictionary: `X_fiducial` is replaced by the array of its values (100), and then `params` is the list of the
elements of `X_fiducial` (101), the values. A name is equal to none of them (105), no mapping from names has them as keys (`KeyError`,
not among the exceptions caught, 113), and no sequence can be indexed with them (`TypeError`, turned into `ValueError`). If there are no
values nothing of this happens, and what is returned is empty. -/
def prepareDict (x : Dict Str K) (bounds : DBounds K) (indices : Option (List Str)) (n : ℤ) : Except Err (Slices K Y) :=
  let params := x.map Prod.snd
  match indices, params with
  | some (_ :: _), _ => .error .valueError
  | _, _ :: _ =>
    match bounds with
    | .map _ => .error .keyError
    | .seq _ => .error .valueError
  | _, [] => if n < 2 then .error .valueError else .ok ⟨[], [], [], []⟩

end slices

/-! ## Reference values (plots.py:747-812) -/

section reference

variable {K : Type*}

/-- A value of the dictionary: a number, or a list of numbers and `None`s. -/
inductive Entry (K : Type*)
  | num (v : K)
  | vals (l : List (Option K))

inductive Ref (K : Type*)
  | map (d : Dict Str (Entry K))
  | seq (l : List (Entry K))

/-- plots.py:797-811, one parameter. -/
def refStep (d : Dict Str (Entry K)) (p : Str) : Dict Str (Entry K) × Option Err :=
  let d1 := if (Cobaya.get d p).isNone then Cobaya.put d (p, .vals (List.replicate 5 none)) else d
  match Cobaya.get d1 p with
  | none => (d1, some .keyError)
  | some (.num v) => (Cobaya.put d1 (p, .vals [none, none, some v, none, none]), none)
  | some (.vals [v]) => (Cobaya.put d1 (p, .vals [none, none, v, none, none]), none)
  | some (.vals l) => if l.length ≠ 5 then (d1, some .valueError) else (d1, none)

/-- plots.py:797-811, the loop: the dictionary, and the exception that ends it. -/
def refLoop : Dict Str (Entry K) → List Str → Dict Str (Entry K) × Option Err
  | d, [] => (d, none)
  | d, p :: ps =>
    match refStep d p with
    | (d', some e) => (d', some e)
    | (d', none) => refLoop d' ps

/-- plots.py:747-812 `_prepare_reference`, without the case of a GetDist sample: what it returns (nothing if GetDist is not installed, 786-787),
and the dictionary of the caller afterwards (if there was one). -/
def prepareRef (getdist : Bool) (params : List Str) (r : Ref K) : Except Err (Option (Dict Str (Entry K))) × Option (Dict Str (Entry K)) :=
  match getdist, r with
  | false, .map d => (.ok none, some d)
  | false, .seq _ => (.ok none, none)
  | true, .map d =>
    match refLoop d params with
    | (d', none) => (.ok (some d'), some d')
    | (d', some e) => (.error e, some d')
  | true, .seq l =>
    if l.length ≠ params.length then (.error .valueError, none)
    else
      -- `dict(zip(...))`
      match refLoop (Cobaya.update [] (params.zip l)) params with
      | (d', none) => (.ok (some d'), none)
      | (_, some e) => (.error e, none)

end reference

/-! ## Numbers (plots.py:33-46) -/

/-- plots.py:33-46 `simple_latex_sci_notation`. Not more than one `e`, otherwise unpacking the parts raises `ValueError`. -/
def sci (s : Str) : Except Err Str :=
  match s.span (fun c => decide (c ≠ 'e')) with
  | (_, []) => .ok s
  | (figs, _ :: exp) =>
    if 'e' ∈ exp then .error .valueError
    else
      let sign := if exp.head? = some '+' then [] else ['-']
      .ok (figs ++ "\\cdot 10^{".toList ++ sign ++ (exp.drop 1).dropWhile (fun c => decide (c = '0')) ++ ['}'])

end GPry.Slices
