import Verif.Model.Bitmap

/-!
# Model of Python's `dict`

A dict is the list of its entries in insertion order.
-/

namespace Hyperreal

/-- A Python `dict` (used throughout /repo/hyperreal/index.py). -/
abbrev Dict (κ ν : Type) := List (κ × ν)

namespace Dict
variable {κ ν : Type} [DecidableEq κ]

/-- The keys in insertion order. -/
def keys (d : Dict κ ν) : List κ := d.map (·.1)

/-- `d.get(k)`. -/
def get? (d : Dict κ ν) (k : κ) : Option ν := (d.find? (fun e => e.1 = k)).map (·.2)

/-- `d[k]`; a missing key raises `KeyError`. -/
def getE (d : Dict κ ν) (k : κ) : Except Err ν :=
  match d.get? k with
  | some v => .ok v
  | none => .error .keyError

/-- `d[k] = v`: replaces in place, or appends. -/
def set (d : Dict κ ν) (k : κ) (v : ν) : Dict κ ν :=
  if d.any (fun e => e.1 = k) then d.map (fun e => if e.1 = k then (k, v) else e) else d ++ [(k, v)]

/-- `del d[k]`; a missing key raises `KeyError`. -/
def delE (d : Dict κ ν) (k : κ) : Except Err (Dict κ ν) :=
  if d.any (fun e => e.1 = k) then .ok (d.filter (fun e => e.1 ≠ k)) else .error .keyError

end Dict
end Hyperreal
