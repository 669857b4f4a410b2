import Verif.Model.Basic

/-!
# bin/bump_version.py, bin/utils.py, .github/workflows/check_version.py

Text is `List Char`, files are lists of lines.  `packaging.version.parse` is a parameter of the model (contract: `Version.Faithful`); `cat`, `sed`, `grep` are modelled.
-/

namespace Primpy
namespace Version

abbrev Text := List Char

/-- What the scripts read of a `packaging.version.Version`.  Post, dev and local segments are not looked at by `unit_incremented`; they count in `==`, `rest` stands for them. -/
structure V where
  epoch : ℕ := 0
  release : List ℕ
  pre : Option (Text × ℕ) := none
  rest : Text := []
  deriving DecidableEq

/-- `Version.major`, `.minor`, `.micro`: missing components are 0 -/
def V.major (v : V) : ℕ := v.release.getD 0 0
@[inherit_doc V.major] def V.minor (v : V) : ℕ := v.release.getD 1 0
@[inherit_doc V.major] def V.micro (v : V) : ℕ := v.release.getD 2 0

/-- `str(n)` -/
def str (n : ℕ) : Text := Nat.toDigits 10 n

/-- `".".join(str(x) for x in release)` -/
def dotted : List ℕ → Text
  | [] => []
  | [n] => str n
  | n :: ns => str n ++ '.' :: dotted ns

/-- `Version.base_version`, a **string**: epoch and release -/
def V.base (v : V) : Text := if v.epoch = 0 then dotted v.release else str v.epoch ++ '!' :: dotted v.release

/-- trailing zeros of the release do not count in `==` -/
def trim (r : List ℕ) : List ℕ := (r.reverse.dropWhile (· = 0)).reverse

/-- `a == b` -/
def V.eqv (a b : V) : Prop := a.epoch = b.epoch ∧ trim a.release = trim b.release ∧ a.pre = b.pre ∧ a.rest = b.rest

instance (a b : V) : Decidable (V.eqv a b) := by unfold V.eqv; infer_instance

/-- bin/utils.py:12-35 = check_version.py:15-38, after the two `version.parse`.  Python compares strings lexicographically by code point, as `List.lt` does. -/
def unitIncremented (a b : V) : Bool :=
  match a.pre, b.pre with
  | some p, some q =>
    if p.1 = q.1 then decide (p.2 = q.2 + 1) && decide (a.base = b.base)
    else decide (p.2 = 0) && decide (q.1 < p.1) && decide (a.base = b.base)
  | some p, none => decide (b.base < a.base) && decide (p.2 = 0)
  | none, some _ => decide (a.base = b.base)
  | none, none =>
    decide ((a.micro = b.micro + 1 ∧ a.minor = b.minor ∧ a.major = b.major) ∨
      (a.micro = 0 ∧ a.minor = b.minor + 1 ∧ a.major = b.major) ∨
      (a.micro = 0 ∧ a.minor = 0 ∧ a.major = b.major + 1))

/-- bump_version.py:27-41: the new triple; any other argument leaves it as it is -/
def bumped (updateType : Option String) (v : V) : List ℕ :=
  match updateType.getD "micro" with
  | "micro" => [v.major, v.minor, v.micro + 1]
  | "minor" => [v.major, v.minor + 1, 0]
  | "major" => [v.major + 1, 0, 0]
  | _ => [v.major, v.minor, v.micro]

/-- `x.split(c)[-1]`: what follows the last `c` (everything if there is none) -/
def afterLast (c : Char) (t : Text) : Text := (t.reverse.takeWhile (· ≠ c)).reverse

/-- `x.strip(...)` with the set of characters `p` -/
def strip (p : Char → Bool) (t : Text) : Text := ((t.dropWhile p).reverse.dropWhile p).reverse

/-- `cat f` -/
def cat (file : List Text) : Text := (file.map (· ++ ['\n'])).flatten

/-- `cat(vfile).split("=")[-1].strip().strip("'")`; bump_version.py:17-18, check_version.py:43-44, 47-48.  (Python's `strip()` also removes the rarer kinds of white space.) -/
def readVersion (file : List Text) : Text := strip (· = '\'') (strip Char.isWhitespace (afterLast '=' (cat file)))

/-- `sed s/pat/new/g` on one line, `pat` a literal (the dots are escaped, line 19) -/
def replaceAll (pat new : Text) (t : Text) : Text :=
  match t with
  | [] => []
  | c :: t => if pat.isPrefixOf (c :: t) then new ++ replaceAll pat new (t.drop (pat.length - 1)) else c :: replaceAll pat new t
  termination_by t.length
  decreasing_by all_goals simp only [List.length_drop, List.length_cons]; omega

/-- `packaging.version.parse` -/
abbrev Parser := Text → Except PyErr V

/-- bump_version.py, `sys.argv[1:] = updateType`: the new contents of the version file and the README. -/
def bump (parse : Parser) (updateType : Option String) (vfile readme : List Text) : Except PyErr (List Text × List Text) :=
  let current := readVersion vfile
  match parse current with
  | .error e => .error e
  | .ok v =>
    let new := dotted (bumped updateType v)
    match parse new with
    | .error e => .error e
    | .ok _ => .ok (vfile.map (replaceAll current new), readme.map (replaceAll current new))

/-- `grep ":Version:" README`, then `.split(":")[-1].strip()`; check_version.py:50-51 -/
def readmeVersion (readme : List Text) : Text :=
  strip Char.isWhitespace (afterLast ':' (cat (readme.filter fun l => decide (":Version:".toList <:+: l))))

/-- check_version.py: the exit code, for the version file and README of the branch and the version file `master` of origin/master. -/
def check (parse : Parser) (vfile readme master : List Text) : Except PyErr ℕ :=
  let current := readVersion vfile
  let previous := readVersion master
  match parse current, parse (readmeVersion readme) with
  | .error e, _ => .error e
  | .ok _, .error e => .error e
  | .ok c, .ok r =>
    if ¬ V.eqv c r then .ok 1
    else match parse previous with
      | .error e => .error e
      | .ok p => if unitIncremented c p then .ok 0 else .ok 1

end Version
end Primpy
