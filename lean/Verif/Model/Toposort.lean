import Verif.Model.Symbols
import Mathlib.Data.List.Dedup

/-!
# Model of the `toposort` package and of `BaseModel.ordered_symbols`
-/

namespace Verif

/-- A connectivity mapping: component ↦ the set of symbols it depends on. -/
abbrev Conn := Dict Sym (List Sym)

namespace Topo

/-- First part of `toposort.toposort(data)` (third party): discard self-dependencies and add
the items that only occur as dependencies, with no dependencies of their own. -/
def init (data : Conn) : Conn :=
  let d := data.map (fun kd => (kd.1, kd.2.filter (fun x => decide (x ≠ kd.1))))
  let extra := ((d.flatMap Prod.snd).dedup).filter (fun x => decide (x ∉ Dict.keys d))
  d ++ extra.map (fun x => (x, []))

/-- The loop of `toposort.toposort`: yield the set of items without dependencies, remove them,
repeat; `CircularDependencyError` when items are left.  The `Nat` is fuel; `toposort` supplies
enough (`peel_fuel`). -/
def peel : Nat → Conn → Except PyErr (List (List Sym))
  | 0, data => if data.isEmpty then .ok [] else .error .circularDependency
  | fuel + 1, data =>
    let ordered := Dict.keys (data.filter (fun kd => kd.2.isEmpty))
    if ordered.isEmpty then
      if data.isEmpty then .ok [] else .error .circularDependency
    else
      match peel fuel ((data.filter (fun kd => decide (kd.1 ∉ ordered))).map
        (fun kd => (kd.1, kd.2.filter (fun x => decide (x ∉ ordered))))) with
      | .error e => .error e
      | .ok r => .ok (ordered :: r)

/-- `list(toposort(data))`: levels, each one a set. -/
def toposort (data : Conn) : Except PyErr (List (List Sym)) := peel (init data).length (init data)

end Topo

/-- Sort key of `ordered_symbols` (models.py:412-413): `[False, False]` for ordinary symbols,
`[True, derivative_count]` for derivatives; ordered like the natural numbers here. -/
def Sym.derOrder : Sym → Nat
  | .der _ ps => ps.length
  | .derVar _ vs => vs.length
  | _ => 0

/-- `sorted(level, key=key_func)` (models.py:416): stable. -/
def sortByDer (l : List Sym) : List Sym := l.insertionSort (fun a b => a.derOrder ≤ b.derOrder)

/-- `BaseModel.ordered_symbols` (models.py:405-418): levels are sets, visited in hash order. -/
def orderedSymbols (h : HashOrder Sym) (conn : Conn) : Except PyErr (List Sym) :=
  match Topo.toposort conn with
  | .error e => .error e
  | .ok levels => .ok (levels.flatMap (fun l => sortByDer (h.ord l)))

end Verif
