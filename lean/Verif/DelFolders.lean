import Verif.McSampProps

set_option linter.all false

/-!
# Deleting the output of nested samplers: folders and names with special characters (gpry/ns_interfaces.py 241-269, 407-419, 523-535)

As `McSamp.deleteOutput`, with folders as part of the state, the exceptions of the library functions, and `glob.glob` on names with `*`, `?` and `[`.
A path has magic components if they contain one of these characters; such a component is matched by `fnmatch`, the others literally.

Simplified: no ranges (`a-z`) within brackets; no links; a folder never has the name of a file.
-/

namespace GPry.McSamp

open GPry Cobaya

/-! ## `fnmatch` -/

/-- Parts of a pattern. -/
inductive Tok
  | star
  | any
  | cls (neg : Bool) (set : List Char)
  | lit (c : Char)
deriving DecidableEq, Repr

/-- What follows an opening bracket: whether it starts with `!`, the characters up to the closing one (which may be the first) and the rest. -/
def bracket (p : Str) : Option (Bool × List Char × Str) :=
  let neg := p.head? = some '!'
  let q := if neg then p.tail else p
  let first := if q.head? = some ']' then [']'] else []
  let r := q.drop first.length
  match r.dropWhile (· ≠ ']') with
  | [] => none
  | _ :: rest => some (neg, first ++ r.takeWhile (· ≠ ']'), rest)

/-- `fnmatch.translate`, with the number of characters as bound; a bracket that is not closed is itself. -/
def tokens : ℕ → Str → List Tok
  | 0, _ => []
  | _ + 1, [] => []
  | n + 1, c :: p =>
    if c = '*' then .star :: tokens n p
    else if c = '?' then .any :: tokens n p
    else if c = '[' then match bracket p with
      | some (neg, set, rest) => .cls neg set :: tokens n rest
      | none => .lit c :: tokens n p
    else .lit c :: tokens n p

/-- Whether the whole name matches. -/
def tokMatch : List Tok → Str → Bool
  | [], s => s.isEmpty
  | .star :: p, [] => tokMatch p []
  | .star :: p, c :: s => tokMatch p (c :: s) || tokMatch (.star :: p) s
  | .any :: p, _ :: s => tokMatch p s
  | .cls neg set :: p, c :: s => (set.contains c != neg) && tokMatch p s
  | .lit a :: p, c :: s => decide (a = c) && tokMatch p s
  | _ :: _, [] => false
termination_by p s => p.length + s.length

def fnmatch (pat name : Str) : Bool := tokMatch (tokens pat.length pat) name

/-- `glob.has_magic` -/
def hasMagic (p : Str) : Bool := p.any fun c => c = '*' || c = '?' || c = '['

/-- One component of a path: literally, or as pattern; names that start with a dot are matched by patterns that do only. -/
def component (pat name : Str) : Bool :=
  if hasMagic pat then fnmatch pat name && (decide (pat.head? = some '.') || decide (name.head? ≠ some '.')) else decide (pat = name)

/-- `glob.glob`: whether a path is among the results. -/
def globPath : List Str → List Str → Bool
  | [], [] => true
  | p :: ps, n :: ns => component p n && globPath ps ns
  | _, _ => false

/-! ## Files and folders -/

structure Disk where
  files : List File
  dirs : List (List Str)
deriving DecidableEq, Repr

inductive DErr
  | fileNotFound
  | notEmpty
  | typeError
deriving DecidableEq, Repr

/-- `os.rmdir` -/
def rmdir (k : Disk) (d : List Str) : Except DErr Disk :=
  if d ∉ k.dirs then .error .fileNotFound
  else if k.files.any (fun f => decide (f.dir = d)) || k.dirs.any (fun e => decide (e ≠ []) && decide (e.dropLast = d)) then .error .notEmpty
  else .ok { k with dirs := k.dirs.filter (· ≠ d) }

/-- `shutil.rmtree` -/
def rmtreeDisk (k : Disk) (d : List Str) : Except DErr Disk :=
  if d ∉ k.dirs then .error .fileNotFound
  else .ok ⟨rmtree k.files d, k.dirs.filter fun e => !d.isPrefixOf e⟩

/-- ns_interfaces.py:258-263: the files that are left. -/
def polyFiles (fs : List File) (base : List Str) (root : Str) : List File :=
  fs.filter fun f => !(globPath (base ++ [root ++ str ".*"]) (f.dir ++ [f.name]) || globPath (base ++ [root ++ str "_*"]) (f.dir ++ [f.name]) ||
    globPath (base ++ [str "clusters", root ++ str "_*"]) (f.dir ++ [f.name]))

/-- ns_interfaces.py:254-269 -/
def polyDisk (k : Disk) (base : List Str) (root : Str) : Except DErr Disk :=
  if root = [] then rmtreeDisk k base
  else
    let k1 : Disk := { k with files := polyFiles k.files base root }
    match rmdir k1 (base ++ [str "clusters"]) with
    | .error _ => .ok k1
    | .ok k2 => match rmdir k2 base with
      | .error _ => .ok k2
      | .ok k3 => .ok k3

/-- ns_interfaces.py:241-269, 407-419, 523-535 `delete_output` in the main process. `last` is the folder and prefix of the last run, if there was one;
before it, the settings of PolyChord have a folder and a prefix of their own (`initial`; "chains" and "test" in `pypolychord`), and the attribute
`output` of the others is `None` (`rmtree(None)` raises TypeError). -/
def deleteDisk (loc : Str → List Str) (dflt : Str) (initial : List Str × Str) (s : Sampler) (last : Option (List Str × Str)) (outDir : Option Str)
    (k : Disk) : Except DErr Disk :=
  match s, outDir with
  | .polychord, none => polyDisk k (last.getD initial).1 (last.getD initial).2
  | .polychord, some o => polyDisk k (loc (Tools.processOutDir id dflt o).1) (Tools.processOutDir id dflt o).2
  | .nessai, some o => rmtreeDisk k (loc (Tools.processOutDir id dflt o).1)
  | _, _ => match last with
    | none => .error .typeError
    | some l => rmtreeDisk k l.1

/-! ## Names without special characters -/

def Plain (p : Str) : Prop := hasMagic p = false

theorem plain_cons {c : Char} {p : Str} : Plain (c :: p) ↔ (c ≠ '*' ∧ c ≠ '?' ∧ c ≠ '[') ∧ Plain p := by
  unfold Plain hasMagic
  simp [not_or, and_assoc]

theorem tokens_plain {p q : Str} (h : Plain p) (n : ℕ) : tokens (p.length + n) (p ++ q) = p.map Tok.lit ++ tokens n q := by
  induction p with
  | nil => simp
  | cons c p ih =>
    obtain ⟨⟨h1, h2, h3⟩, h4⟩ := plain_cons.1 h
    have e : (c :: p).length + n = (p.length + n) + 1 := by simp; omega
    rw [e, List.cons_append, tokens, if_neg h1, if_neg h2, if_neg h3, ih h4]
    rfl

theorem tokMatch_star (s : Str) : tokMatch [.star] s = true := by
  induction s with
  | nil => simp [tokMatch]
  | cons c s ih => simp [tokMatch, ih]

theorem tokMatch_prefix (p s : Str) : tokMatch (p.map Tok.lit ++ [.star]) s = true ↔ p <+: s := by
  induction p generalizing s with
  | nil => simp [tokMatch_star]
  | cons a p ih =>
    cases s with
    | nil => simp [tokMatch]
    | cons c s =>
      rw [List.map_cons, List.cons_append, tokMatch, Bool.and_eq_true, decide_eq_true_eq, ih, List.cons_prefix_cons]

theorem fnmatch_prefix {p : Str} (h : Plain p) (s : Str) : fnmatch (p ++ ['*']) s = true ↔ p <+: s := by
  unfold fnmatch
  have : tokens (p ++ ['*']).length (p ++ ['*']) = p.map Tok.lit ++ [.star] := by
    rw [List.length_append, tokens_plain h]
    simp [tokens]
  rw [this, tokMatch_prefix]

theorem plain_append {p q : Str} : Plain (p ++ q) ↔ Plain p ∧ Plain q := by
  unfold Plain hasMagic
  simp

/-- A pattern with star at the end matches the names that start with what is before it. -/
theorem component_prefix {p : Str} (h : Plain p) (hp : p ≠ []) (s : Str) : component (p ++ ['*']) s = true ↔ p <+: s := by
  unfold component
  have hm : hasMagic (p ++ ['*']) = true := by simp [hasMagic]
  rw [if_pos hm, Bool.and_eq_true, fnmatch_prefix h]
  constructor
  · exact fun h => h.1
  · intro hs
    refine ⟨hs, ?_⟩
    obtain ⟨c, p, rfl⟩ := List.exists_cons_of_ne_nil hp
    obtain ⟨t, rfl⟩ := hs
    simp only [List.cons_append, List.head?_cons, Bool.or_eq_true, decide_eq_true_eq, Option.some.injEq, ne_eq]
    exact em _

theorem component_plain {p : Str} (h : Plain p) (s : Str) : component p s = true ↔ p = s := by
  unfold component
  rw [if_neg (by rw [h]; simp), decide_eq_true_eq]

theorem globPath_snoc (ps : List Str) (p n : Str) (ns : List Str) :
    globPath (ps ++ [p]) (ns ++ [n]) = true ↔ globPath ps ns = true ∧ component p n = true := by
  induction ps generalizing ns with
  | nil =>
    cases ns with
    | nil => simp [globPath]
    | cons a ns => cases ns <;> simp [globPath]
  | cons q ps ih =>
    cases ns with
    | nil => cases ps <;> simp [globPath]
    | cons a ns => simp only [List.cons_append, globPath, Bool.and_eq_true, ih, and_assoc]

theorem globPath_plain {ps : List Str} (h : ∀ p ∈ ps, Plain p) (ns : List Str) : globPath ps ns = true ↔ ns = ps := by
  induction ps generalizing ns with
  | nil => cases ns <;> simp [globPath]
  | cons p ps ih =>
    cases ns with
    | nil => simp [globPath]
    | cons n ns =>
      rw [globPath, Bool.and_eq_true, component_plain (h p (by simp)), ih fun q hq => h q (by simp [hq]), List.cons.injEq]
      exact and_congr_left fun _ => eq_comm

/-- **C92**: for folders and prefixes without special characters the files deleted are those of `polyDelete`. -/
theorem C92_glob_partial (fs : List File) (base : List Str) (root : Str) (hb : ∀ p ∈ base, Plain p) (hr : Plain root) (hr0 : root ≠ []) :
    polyFiles fs base root = polyDelete fs base root := by
  unfold polyFiles polyDelete
  rw [if_neg hr0]
  refine List.filter_congr fun f _ => ?_
  have hd : Plain (root ++ ['.']) := plain_append.2 ⟨hr, rfl⟩
  have hu : Plain (root ++ ['_']) := plain_append.2 ⟨hr, rfl⟩
  have e1 : root ++ str ".*" = (root ++ ['.']) ++ ['*'] := by simp [str]
  have e2 : root ++ str "_*" = (root ++ ['_']) ++ ['*'] := by simp [str]
  have hc : ∀ p ∈ base ++ [str "clusters"], Plain p := by
    intro p hp
    rcases List.mem_append.1 hp with h | h
    · exact hb p h
    · rw [List.mem_singleton] at h
      subst h
      rfl
  congr 1
  rw [Bool.eq_iff_iff]
  have e3 : base ++ [str "clusters", root ++ str "_*"] = (base ++ [str "clusters"]) ++ [root ++ str "_*"] := by simp
  rw [e3]
  simp only [Bool.or_eq_true, Bool.and_eq_true, decide_eq_true_eq, globPath_snoc, globPath_plain hb, globPath_plain hc, e1, e2,
    component_prefix hd (by simp), component_prefix hu (by simp), globbed, List.isPrefixOf_iff_prefix, and_or_left]

/-- **C92** is false for prefixes with brackets: the output of the run stays, and a file of another run is deleted. -/
theorem C92_glob_counterexample : polyFiles [⟨[str "f"], str "a[1].txt"⟩, ⟨[str "f"], str "a1.txt"⟩] [str "f"] (str "a[1]") =
    [⟨[str "f"], str "a[1].txt"⟩] := by
  decide +kernel

/-! ## Folders -/

/-- Every file is in a folder that exists, as does the folder of every folder. -/
def Disk.Wf (k : Disk) : Prop := (∀ f ∈ k.files, f.dir ∈ k.dirs) ∧ ∀ d ∈ k.dirs, d ≠ [] → d.dropLast ∈ k.dirs

theorem rmdir_ok {k k' : Disk} {d : List Str} (h : rmdir k d = .ok k') :
    d ∈ k.dirs ∧ (∀ f ∈ k.files, f.dir ≠ d) ∧ (∀ e ∈ k.dirs, e ≠ [] → e.dropLast ≠ d) ∧ k' = { k with dirs := k.dirs.filter (· ≠ d) } := by
  unfold rmdir at h
  split_ifs at h with h1 h2
  simp only [Bool.or_eq_true, List.any_eq_true, Bool.and_eq_true, decide_eq_true_eq, not_or, not_exists, not_and] at h2
  exact ⟨h1, h2.1, h2.2, by cases h; rfl⟩

theorem rmdir_wf {k k' : Disk} {d : List Str} (hk : k.Wf) (h : rmdir k d = .ok k') : k'.Wf := by
  obtain ⟨-, h2, h3, rfl⟩ := rmdir_ok h
  refine ⟨fun f hf => ?_, fun e he hn => ?_⟩
  · simpa using ⟨hk.1 f hf, h2 f hf⟩
  · have he' : e ∈ k.dirs ∧ e ≠ d := by simpa using he
    simpa using ⟨hk.2 e he'.1 hn, h3 e he'.1 hn⟩

/-- **C92**: deleting the output of PolyChord with a prefix never raises; the files left are those of `polyFiles`; a folder that is gone is the folder of
the run or its folder `clusters`, and was empty: no file that is left has lost its folder. -/
theorem C92_folders (k : Disk) (base : List Str) (root : Str) (hr : root ≠ []) (hk : k.Wf) :
    ∃ k', polyDisk k base root = .ok k' ∧ k'.files = polyFiles k.files base root ∧ k'.Wf ∧ (∀ d ∈ k'.dirs, d ∈ k.dirs) ∧
      ∀ d ∈ k.dirs, d ∉ k'.dirs → d = base ∨ d = base ++ [str "clusters"] := by
  unfold polyDisk
  rw [if_neg hr]
  dsimp only
  have hk1 : (⟨polyFiles k.files base root, k.dirs⟩ : Disk).Wf :=
    ⟨fun f hf => hk.1 f (List.mem_filter.1 hf).1, hk.2⟩
  cases h1 : rmdir ⟨polyFiles k.files base root, k.dirs⟩ (base ++ [str "clusters"]) with
  | error e => exact ⟨_, rfl, rfl, hk1, fun d h => h, fun d h hn => absurd h hn⟩
  | ok k2 =>
    have hk2 := rmdir_wf hk1 h1
    obtain ⟨-, -, -, e2⟩ := rmdir_ok h1
    dsimp only
    cases h2 : rmdir k2 base with
    | error e =>
      subst e2
      exact ⟨_, rfl, rfl, hk2, fun d h => (List.mem_filter.1 h).1, fun d h hn => .inr (by_contra fun hc => hn (by simpa using ⟨h, hc⟩))⟩
    | ok k3 =>
      have hk3 := rmdir_wf hk2 h2
      obtain ⟨-, -, -, e3⟩ := rmdir_ok h2
      subst e2
      subst e3
      refine ⟨_, rfl, rfl, hk3, fun d h => (List.mem_filter.1 (List.mem_filter.1 h).1).1, fun d h hn => ?_⟩
      by_contra hc
      rw [not_or] at hc
      exact hn (List.mem_filter.2 ⟨List.mem_filter.2 ⟨h, by simpa using hc.2⟩, by simpa using hc.1⟩)

/-- **C92** (with a folder `clusters`): the folders are removed if nothing but the output was in them. -/
theorem C92_folders_partial (k : Disk) (base : List Str) (root : Str) (hr : root ≠ []) (hc : base ++ [str "clusters"] ∈ k.dirs) (hb : base ∈ k.dirs)
    (hf : ∀ f ∈ polyFiles k.files base root, f.dir ≠ base ∧ f.dir ≠ base ++ [str "clusters"])
    (hd : ∀ d ∈ k.dirs, d ≠ [] → d.dropLast = base → d = base ++ [str "clusters"])
    (hd2 : ∀ d ∈ k.dirs, d ≠ [] → d.dropLast ≠ base ++ [str "clusters"]) :
    ∃ k', polyDisk k base root = .ok k' ∧ base ∉ k'.dirs ∧ base ++ [str "clusters"] ∉ k'.dirs := by
  have hne : base ≠ base ++ [str "clusters"] := by simp
  have e1 : rmdir ⟨polyFiles k.files base root, k.dirs⟩ (base ++ [str "clusters"]) =
      .ok ⟨polyFiles k.files base root, k.dirs.filter (· ≠ base ++ [str "clusters"])⟩ := by
    unfold rmdir
    rw [if_neg (not_not.2 hc), if_neg]
    simp only [Bool.or_eq_true, List.any_eq_true, Bool.and_eq_true, decide_eq_true_eq, not_or, not_exists, not_and]
    exact ⟨fun f h => (hf f h).2, hd2⟩
  have e2 : rmdir ⟨polyFiles k.files base root, k.dirs.filter (· ≠ base ++ [str "clusters"])⟩ base =
      .ok ⟨polyFiles k.files base root, (k.dirs.filter (· ≠ base ++ [str "clusters"])).filter (· ≠ base)⟩ := by
    unfold rmdir
    have hb' : base ∈ k.dirs.filter (· ≠ base ++ [str "clusters"]) := by simpa using hb
    rw [if_neg (not_not.2 hb'), if_neg]
    simp only [Bool.or_eq_true, List.any_eq_true, Bool.and_eq_true, decide_eq_true_eq, not_or, not_exists, not_and]
    refine ⟨fun f h => (hf f h).1, fun d h hn hq => ?_⟩
    have h' : d ∈ k.dirs ∧ d ≠ base ++ [str "clusters"] := by simpa using h
    exact h'.2 (hd d h'.1 hn hq)
  refine ⟨⟨polyFiles k.files base root, (k.dirs.filter (· ≠ base ++ [str "clusters"])).filter (· ≠ base)⟩, ?_, by simp, by simp⟩
  unfold polyDisk
  rw [if_neg hr]
  dsimp only
  rw [e1]
  dsimp only
  rw [e2]

/-- **C92** is false if there is no folder `clusters` (any more): the folder of the run stays though it may be
empty, as the first `rmdir` raises. -/
theorem C92_folders_counterexample (k : Disk) (base : List Str) (root : Str) (hr : root ≠ []) (hb : base ∈ k.dirs) (hc : base ++ [str "clusters"] ∉ k.dirs) :
    ∃ k', polyDisk k base root = .ok k' ∧ base ∈ k'.dirs := by
  refine ⟨⟨polyFiles k.files base root, k.dirs⟩, ?_, hb⟩
  unfold polyDisk
  rw [if_neg hr]
  dsimp only
  have : rmdir ⟨polyFiles k.files base root, k.dirs⟩ (base ++ [str "clusters"]) = .error .fileNotFound := by
    unfold rmdir
    rw [if_pos hc]
  rw [this]

/-- **C92** is false: deleting what is not there (as when calling it twice) raises for nessai and UltraNest, also before the first run; UltraNest raises then
for a given folder, too. -/
theorem C92_twice_counterexample (loc : Str → List Str) (dflt : Str) (ini l : List Str × Str) (k k' : Disk) (s : Sampler) (hs : s ≠ .polychord)
    (h : deleteDisk loc dflt ini s (some l) none k = .ok k') :
    deleteDisk loc dflt ini s (some l) none k' = .error .fileNotFound ∧ deleteDisk loc dflt ini s none none k = .error .typeError ∧
      ∀ o, deleteDisk loc dflt ini .ultranest none o k = .error .typeError := by
  refine ⟨?_, ?_, fun o => by cases o <;> rfl⟩
  · have e : ∀ q, deleteDisk loc dflt ini s (some l) none q = rmtreeDisk q l.1 := by
      intro q
      cases s
      · exact absurd rfl hs
      · rfl
      · rfl
    rw [e] at h ⊢
    unfold rmtreeDisk at h ⊢
    split_ifs at h with h1
    cases h
    rw [if_pos]
    intro hm
    have := (List.mem_filter.1 hm).2
    rw [List.isPrefixOf_iff_prefix.2 List.prefix_rfl] at this
    cases this
  · cases s
    · exact absurd rfl hs
    · rfl
    · rfl

/-- **C92** is false: before the first run there is no output, but for PolyChord `delete_output()` deletes the files that have the initial prefix of its settings. -/
theorem C92_before_counterexample (loc : Str → List Str) (dflt : Str) (ini : List Str × Str) (k : Disk) (hk : k.Wf) (hi : ini.2 ≠ [])
    (hp : ∀ p ∈ ini.1, Plain p) (hq : Plain ini.2) (ext : Str) :
    ∃ k', deleteDisk loc dflt ini .polychord none none k = .ok k' ∧ ⟨ini.1, ini.2 ++ '.' :: ext⟩ ∉ k'.files := by
  obtain ⟨k', h1, h2, -⟩ := C92_folders k ini.1 ini.2 hi hk
  refine ⟨k', h1, ?_⟩
  rw [h2, C92_glob_partial _ _ _ hp hq hi, mem_polyDelete _ _ _ hi]
  exact fun h => h.2.1 ⟨rfl, .inl ⟨ext, by simp⟩⟩

/-- **C92**: with PolyChord calling it twice is the same as once. -/
theorem C92_twice_polychord (k k' : Disk) (base : List Str) (root : Str) (hr : root ≠ []) (hk : k.Wf) (h : polyDisk k base root = .ok k') :
    ∃ k'', polyDisk k' base root = .ok k'' ∧ k''.files = k'.files := by
  obtain ⟨k1, h1, h2, h3, -⟩ := C92_folders k base root hr hk
  rw [h1] at h
  obtain rfl : k1 = k' := by simpa using h
  obtain ⟨k2, g1, g2, -⟩ := C92_folders k1 base root hr h3
  refine ⟨k2, g1, ?_⟩
  rw [g2, h2]
  unfold polyFiles
  rw [List.filter_filter]
  simp

/-- The folder and prefix that `delete_output` of an interface acts on. -/
def target (loc : Str → List Str) (dflt : Str) (last : List Str × Str) : Option Str → List Str × Str
  | none => last
  | some o => (loc (Tools.processOutDir id dflt o).1, (Tools.processOutDir id dflt o).2)

/-- **C92**: whenever `delete_output` returns, for folders and prefixes without special characters, the files left are those of `deleteOutput`. -/
theorem C92_disk_partial (loc : Str → List Str) (dflt : Str) (s : Sampler) (last : List Str × Str) (o : Option Str) (ini : List Str × Str) (k k' : Disk) (hk : k.Wf)
    (hb : ∀ p ∈ (target loc dflt last o).1, Plain p) (hr : Plain (target loc dflt last o).2)
    (h : deleteDisk loc dflt ini s (some last) o k = .ok k') : k'.files = deleteOutput loc dflt s true last o k.files := by
  have hrm : ∀ d, rmtreeDisk k d = .ok k' → k'.files = rmtree k.files d := by
    intro d h
    unfold rmtreeDisk at h
    split_ifs at h
    cases h
    rfl
  have hp : ∀ base root, (∀ p ∈ base, Plain p) → Plain root → polyDisk k base root = .ok k' → k'.files = polyDelete k.files base root := by
    intro base root h1 h2 h
    by_cases hr0 : root = []
    · unfold polyDisk at h
      rw [if_pos hr0] at h
      unfold polyDelete
      rw [if_pos hr0]
      exact hrm _ h
    · obtain ⟨k1, g1, g2, -⟩ := C92_folders k base root hr0 hk
      rw [g1] at h
      obtain rfl : k1 = k' := by simpa using h
      rw [g2, C92_glob_partial _ _ _ h1 h2 hr0]
  unfold deleteOutput
  rw [if_neg (by simp)]
  cases s <;> cases o
  · exact hp _ _ hb hr h
  · exact hp _ _ hb hr h
  · exact hrm _ h
  · exact hrm _ h
  · exact hrm _ h
  · exact hrm _ h

/-! ## Examples -/

def exDisk : Disk := ⟨[⟨[str "f"], str "a.txt"⟩, ⟨[str "f", str "clusters"], str "a_1.txt"⟩], [[], [str "f"], [str "f", str "clusters"], [str "g"]]⟩

example : polyDisk exDisk [str "f"] (str "a") = .ok ⟨[], [[], [str "g"]]⟩ := by decide +kernel

example : exDisk.Wf := by
  unfold Disk.Wf
  decide +kernel

example : ∃ k', polyDisk exDisk [str "f"] (str "a") = .ok k' ∧ [str "f"] ∉ k'.dirs ∧ [str "f"] ++ [str "clusters"] ∉ k'.dirs :=
  C92_folders_partial exDisk [str "f"] (str "a") (by decide) (by decide) (by decide) (by decide +kernel) (by decide +kernel) (by decide +kernel)

/-- A file of another run keeps both folders. -/
example : polyDisk { exDisk with files := ⟨[str "f", str "clusters"], str "b_1.txt"⟩ :: exDisk.files } [str "f"] (str "a") =
    .ok ⟨[⟨[str "f", str "clusters"], str "b_1.txt"⟩], exDisk.dirs⟩ := by decide +kernel

example : polyDisk ⟨[⟨[str "f"], str "a.txt"⟩], [[], [str "f"]]⟩ [str "f"] (str "a") = .ok ⟨[], [[], [str "f"]]⟩ := by decide +kernel

example : ∃ k', polyDisk ⟨[⟨[str "f"], str "a.txt"⟩], [[], [str "f"]]⟩ [str "f"] (str "a") = .ok k' ∧ [str "f"] ∈ k'.dirs :=
  C92_folders_counterexample _ _ _ (by decide) (by decide) (by decide)

example : deleteDisk (fun s => [s]) (str "ns_samples") ([str "chains"], str "test") .nessai (some ([str "f"], str "a")) none ⟨[⟨[str "g"], str "a.txt"⟩], [[], [str "g"]]⟩ =
    .error .fileNotFound :=
  (C92_twice_counterexample (fun s => [s]) (str "ns_samples") ([str "chains"], str "test") ([str "f"], str "a")
    { exDisk with files := ⟨[str "g"], str "a.txt"⟩ :: exDisk.files } _ .nessai (by decide) (by decide +kernel)).1

example : polyFiles exFiles [str "f"] (str "a") = [⟨[str "f"], str "b.txt"⟩, ⟨[str "g"], str "a.txt"⟩] := by
  rw [C92_glob_partial _ _ _ (by unfold Plain; decide) (by unfold Plain; decide) (by decide)]
  decide +kernel

example : ([] : List File) = deleteOutput (fun s => [s]) (str "ns_samples") .polychord true ([], []) (some (str "f/a")) exDisk.files :=
  C92_disk_partial (fun s => [s]) (str "ns_samples") .polychord ([], []) (some (str "f/a")) ([], []) exDisk ⟨[], [[], [str "g"]]⟩
    (by unfold Disk.Wf; decide +kernel) (by unfold Plain; decide +kernel) (by unfold Plain; decide +kernel) (by decide +kernel)

/-- Someone else's file. -/
example : ∃ k', deleteDisk (fun s => [s]) (str "ns_samples") ([str "f"], str "a") .polychord none none exDisk = .ok k' ∧ ⟨[str "f"], str "a" ++ '.' :: str "txt"⟩ ∉ k'.files :=
  C92_before_counterexample _ _ _ exDisk (by unfold Disk.Wf; decide +kernel) (by decide) (by unfold Plain; decide +kernel) (by unfold Plain; decide +kernel) _

example : ∃ k'', polyDisk ⟨[], [[], [str "g"]]⟩ [str "f"] (str "a") = .ok k'' ∧ k''.files = [] :=
  C92_twice_polychord exDisk _ [str "f"] (str "a") (by decide) (by unfold Disk.Wf; decide +kernel) (by decide +kernel)

end GPry.McSamp
