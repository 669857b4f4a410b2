import Verif.Model.Basic

/-!
# primpy/equations.py — variable registration and solution post-processing

Python `dict`s (insertion ordered) are association lists.  A solution vector `y` is a function from
row numbers to whatever a row holds (a number for one time, an array for a whole solution).
-/

namespace Primpy

/-- An insertion-ordered Python `dict` with string keys. -/
abbrev Dict (α : Type) := List (String × α)

namespace Dict
variable {α : Type}
/-- `d.get(k)` / `d[k]` (`none` = `KeyError`). -/
def get? (d : Dict α) (k : String) : Option α := List.lookup k d
/-- `k in d` -/
def contains (d : Dict α) (k : String) : Bool := d.any (·.1 == k)
/-- `d[k] = v`: overwrite in place if the key exists, append otherwise. -/
def set : Dict α → String → α → Dict α
  | [], k, v => [(k, v)]
  | (k', v') :: d, k, v => if k = k' then (k', v) :: d else (k', v') :: set d k v
/-- `del d[k]` / `d.pop(k)` -/
def del (d : Dict α) (k : String) : Dict α := d.filter (·.1 ≠ k)
end Dict

/-- The bound accessor methods `Equations` installs on itself with `setattr`. -/
inductive Accessor where
  /-- equations.py:72-73: returns the independent variable -/
  | indep
  /-- equations.py:100-101: returns row `self.idx[name]` of `y` -/
  | row (name : String)
  deriving DecidableEq, Repr

/-- The state of an `Equations` object (equations.py:8-24). -/
structure Equations where
  /-- equations.py:24 -/
  idx : Dict ℕ
  /-- equations.py:78, unset until `_set_independent_variable` -/
  independent_variable : Option String
  /-- the accessor methods in the instance `__dict__` -/
  methods : Dict Accessor
  deriving DecidableEq, Repr

namespace Equations
/-- equations.py:23-24 -/
def new : Equations := ⟨[], none, []⟩
/-- equations.py:63-78 -/
def set_independent_variable (e : Equations) (name : String) : Equations :=
  { e with methods := e.methods.set name .indep, independent_variable := some name }
/-- equations.py:97-120: `self.idx[name] = len(self.idx)`, the right side evaluated first; then
the accessor, which looks the index up again at call time, is installed. -/
def add_variable1 (e : Equations) (name : String) : Equations :=
  { e with idx := e.idx.set name e.idx.length, methods := e.methods.set name (.row name) }
/-- equations.py:80-95 -/
def add_variable (e : Equations) (names : List String) : Equations :=
  names.foldl add_variable1 e
/-- Calling `equations.<name>(x, y)` (equations.py:72-73 and 100-101).  `none` stands for the
exception (`AttributeError` if there is no such method, `KeyError`/`IndexError` otherwise). -/
def call {α : Type} (e : Equations) (name : String) (x : α) (y : List α) : Option α :=
  match e.methods.get? name with
  | none => none
  | some .indep => some x
  | some (.row n) => (e.idx.get? n).bind fun i => y[i]?
end Equations

end Primpy
