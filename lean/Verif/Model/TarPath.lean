/-!
# Metadata tarballs: /repo/lsl/common/metabundle.py, /repo/lsl/common/_metabundle_utils.py

Names are character lists, directories are component lists below the root.  Only regular files and symbolic links
are modelled as members; the tarball is extracted without the filters of later Python versions (the code asks for
none).  Symbolic links on the machine outside the temporary directory are not modelled.
-/
namespace Verif.TarPath

abbrev Name := List Char
abbrev Comp := List Char
abbrev Dir := List Comp

/-- `name.split('/')`. -/
def splitSlash : Name → List Comp
  | [] => [[]]
  | c :: l =>
    match splitSlash l with
    | [] => [[c]]
    | p :: q => if c = '/' then [] :: p :: q else (c :: p) :: q

/-- `os.path.isabs`. -/
def isAbs (n : Name) : Bool := n.head? = some '/'

/-- One component of `os.path.normpath` of an absolute path. -/
def normStep (acc : Dir) (c : Comp) : Dir :=
  if c = [] ∨ c = ['.'] then acc else if c = ['.', '.'] then acc.dropLast else acc ++ [c]

/-- Components of `os.path.normpath` of an absolute path, `..` at the root stays at the root.  (A path of
exactly two leading slashes keeps both in Python, which names the same place and is dropped by `commonpath`.) -/
def normpath (cs : List Comp) : Dir := cs.foldl normStep []

/-- Components of `os.path.join(tempDir, name)`; `temp` is the absolute path of the temporary directory. -/
def join (temp : Dir) (n : Name) : List Comp := if isAbs n then splitSlash n else temp ++ splitSlash n

/-- `os.path.commonpath` of two absolute paths. -/
def commonpath : Dir → Dir → Dir
  | a :: l, b :: m => if a = b then a :: commonpath l m else []
  | _, _ => []

/-- The check before each `extract`, e.g. metabundle.py:204-209: is the member extracted? -/
def accepted (temp : Dir) (n : Name) : Bool := commonpath temp (normpath (join temp n)) = temp

/-- Symbolic links: place and target. -/
abbrev Links := List (Dir × Name)

/-- The place a path leads to: components are followed one by one, a link is replaced by its target (relative
to the place of the link).  `none`: too many links. -/
def resolve (links : Links) : Nat → Dir → List Comp → Option Dir
  | _, cur, [] => some cur
  | fuel, cur, c :: r =>
    if c = [] ∨ c = ['.'] then resolve links fuel cur r
    else if c = ['.', '.'] then resolve links fuel cur.dropLast r
    else
      match links.lookup (cur ++ [c]), fuel with
      | none, fuel => resolve links fuel (cur ++ [c]) r
      | some _, 0 => none
      | some t, fuel + 1 => resolve links fuel (if isAbs t then [] else cur) (splitSlash t ++ r)
termination_by fuel _ cs => (fuel, cs.length)

/-- Limit of the kernel on the number of links followed in a path. -/
def maxLinks : Nat := 40

inductive Member
  | file (name : Name)
  | link (name target : Name)

def Member.name : Member → Name
  | .file n => n
  | .link n _ => n

/-- `tf.extract(member, tempDir)`: a file is written at the place its path leads to, also through links; a link
is made in the place its directory leads to.  Gives the links and the place written to. -/
def extract1 (temp : Dir) (links : Links) : Member → Links × Option Dir
  | .file n => (links, resolve links maxLinks [] (join temp n))
  | .link n t =>
    match resolve links maxLinks [] (join temp n).dropLast, (join temp n).getLast? with
    | some d, some c => ((d ++ [c], t) :: links, some (d ++ [c]))
    | _, _ => (links, none)

/-- The loop over the members to extract, e.g. metabundle.py:359-367.  Gives the links and the places written. -/
def extractAll (temp : Dir) : Links → List Member → Links × List Dir
  | links, [] => (links, [])
  | links, m :: l =>
    if accepted temp m.name then
      let r := extract1 temp links m
      let s := extractAll temp r.1 l
      (s.1, r.2.toList ++ s.2)
    else extractAll temp links l

/-- The file then opened: `open(os.path.join(tempDir, ti.name))`, e.g. _metabundle_utils.py:124-125,
metabundle.py:333. -/
def opened (temp : Dir) (links : Links) (n : Name) : Option Dir := resolve links maxLinks [] (join temp n)

/-- Which member is used when none has the expected name: the loop variable after the loop,
e.g. _metabundle_utils.py:110-113, metabundle.py:408-410.  `none` is the error of an empty tarball. -/
def pick {α : Type} (p : α → Bool) : List α → Option α
  | [] => none
  | [a] => some a
  | a :: b :: l => if p a then some a else pick p (b :: l)

/-- `_open_tarball` under `lru_cache(maxsize=1)`, _metabundle_utils.py:27-29: the name and content of the last
tarball opened are kept; content on disk is a function of the name. -/
def openTarball {α : Type} (cache : Option (Name × α)) (disk : Name → α) (n : Name) : Option (Name × α) × α :=
  match cache with
  | some (m, c) => if m = n then (cache, c) else (some (n, disk n), disk n)
  | none => (some (n, disk n), disk n)

end Verif.TarPath
