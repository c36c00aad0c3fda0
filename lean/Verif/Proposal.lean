import Verif.Tools

set_option linter.all false

/-!
# Proposers (gpry/proposal.py)

The random generator is a state with arbitrary functions; the proposals that go through the decorator `check_in_bounds` are
arbitrary. What `get` changes in the proposer (mean already used, stored chain) is part of the state of the generator.
Not modelled here: the last two classes of the file (marked there as unused and possibly outdated; the last one is in Chain.lean), and
shapes of arrays.
-/

namespace GPry.Proposal

open GPry

variable {K : Type*} [Field K] [LinearOrder K]

abbrev Box (K : Type*) := List (K × K)

inductive Err
  | typeError | valueError
deriving DecidableEq, Repr

/-- The random numbers. -/
structure Rng (K G : Type*) where
  /-- a proposal of a decorated `get` (`ReferenceProposer`, `PriorProposer`, `MeanCovProposer`), by number of the proposer -/
  raw : ℕ → G → List (Ext K) × G
  /-- numbers in the unit interval -/
  unif : ℕ → G → List K × G
  coin : G → K × G
  /-- `rng.choice(n, size=m, replace=False)` for `m <= n` -/
  choice : ℕ → ℕ → G → List ℕ × G
  /-- exponential distribution -/
  expon : ℕ → G → List K × G

inductive Proposer (K : Type*)
  /-- proposal.py:97-133, 218-255: with `check_in_bounds` -/
  | checked (tag : ℕ) (bounds : Box K)
  /-- proposal.py:136-160 -/
  | uniform (bounds : Box K)
  /-- proposal.py:163-215: the bounds of the uniform proposer, the fraction, the true proposer -/
  | part (bounds : Box K) (rpf : K) (p : Proposer K)
  /-- proposal.py:258-319: bounds, `training`, `training_` -/
  | centroids (bounds : Box K) (training training' : Option (List (List K)))

/-- Bounds as extended numbers. -/
def ext (b : Box K) : List (Ext K × Ext K) := b.map fun q => (.fin q.1, .fin q.2)

/-- proposal.py:67-77, 148-154, 212-215, 313-319 `update_bounds` -/
def Proposer.updateBounds (b : Box K) : Proposer K → Proposer K
  | .checked tag _ => .checked tag b
  | .uniform _ => .uniform b
  | .part _ rpf p => .part b rpf (p.updateBounds b)
  | .centroids _ t t' => .centroids b t (match t with
    | none => t'
    | some t => some (t.filter fun x => Tools.isInBounds (ext b) (x.map .fin)))

/-- proposal.py:79-87, 209-210, 309-311 `update` with the training set of the surrogate -/
def Proposer.update (X : List (List K)) : Proposer K → Proposer K
  | .checked tag b => .checked tag b
  | .uniform b => .uniform b
  | .part b rpf p => .part b rpf (p.update X)
  | .centroids b _ t' => .centroids b (some X) t'

/-- proposal.py:29-40: the loop, at most `fuel` times; `none` if it did not finish. -/
def checkLoop {G : Type*} (R : Rng K G) (tag : ℕ) (b : Box K) : ℕ → G → Option (List (Ext K) × G)
  | 0, _ => none
  | fuel + 1, g =>
    let (x, g) := R.raw tag g
    if Tools.isInBounds (ext b) x then some (x, g) else checkLoop R tag b fuel g

/-- scipy `uniform(loc, scale).rvs` -/
def uniformPoint (b : Box K) (u : List K) : List K := List.zipWith (fun q u => q.1 + (q.2 - q.1) * u) b u

/-- `np.clip` -/
def clip (lo hi v : K) : K := min (max v lo) hi

/-- The column `i` of some points (0 if missing). -/
def column (i : ℕ) (pts : List (List K)) : List K := pts.map fun x => x.getD i 0

/-- proposal.py:298-307, coordinate `i` of the result: centroid, kick towards one of the points, clipping. -/
def centroidCoord (pts : List (List K)) (i : ℕ) (j : ℕ) (e : K) (q : K × K) : K :=
  let c := (column i pts).sum / (pts.length : K)
  clip q.1 q.2 (c + ((pts.getD j []).getD i 0 - c) * e)

/-- proposal.py:289-295: the subset of `d + 1` points. -/
def subset {G : Type*} (R : Rng K G) (d : ℕ) (t t' : Option (List (List K))) (g : G) : Except Err (List (List K)) × G :=
  match t' with
  | none => (.error .typeError, g)
  | some t' =>
    if d + 1 ≤ t'.length then
      let (js, g) := R.choice t'.length (d + 1) g
      (.ok (js.map fun j => t'.getD j []), g)
    else
      match t with
      | none => (.error .typeError, g)
      | some t =>
        if d + 1 ≤ t.length then
          let (js, g) := R.choice t.length (d + 1) g
          (.ok (js.map fun j => t.getD j []), g)
        else (.error .valueError, g)

/-- `get`: `none` if a loop did not finish. -/
def Proposer.get {G : Type*} (R : Rng K G) (fuel : ℕ) : Proposer K → G → Option (Except Err (List (Ext K)) × G)
  | .checked tag b, g => (checkLoop R tag b fuel g).map fun q => (.ok q.1, q.2)
  | .uniform b, g =>
    let (u, g) := R.unif b.length g
    some (.ok ((uniformPoint b u).map .fin), g)
  | .part b rpf p, g =>
    let (c, g) := R.coin g
    if rpf < c then p.get R fuel g
    else
      let (u, g) := R.unif b.length g
      some (.ok ((uniformPoint b u).map .fin), g)
  | .centroids b t t', g =>
    match subset R b.length t t' g with
    | (.error e, g) => some (.error e, g)
    | (.ok pts, g) =>
      let (js, g) := R.choice (b.length + 1) b.length g
      let (es, g) := R.expon b.length g
      some (.ok (((List.range b.length).map fun i =>
        centroidCoord pts i (js.getD i 0) (es.getD i 0) (b.getD i (0, 0))).map .fin), g)

end GPry.Proposal
