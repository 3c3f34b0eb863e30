import Verif.Bytes
/-
Specification of durable storage, independent of the model: a single cell that is empty until the first
write and then holds the last completed write. A write interrupted by power loss leaves the cell with
its old or its new value.
-/
namespace Spec
open Tezos (Bytes)

/-- What an interrupted page program leaves in the page: the old contents, the complete new contents, or
something else. -/
inductive Torn where
  | old
  | new
  | garbage (page : Bytes)
  deriving DecidableEq, Repr

/-- Events in the life of one store. `interrupted v t` is a write of `v` cut by power loss, followed by a
relaunch. -/
inductive StoreEv where
  | write (v : Bytes)
  | relaunch
  | interrupted (v : Bytes) (t : Torn)
  deriving DecidableEq, Repr

/-- The single cell: one event. -/
inductive CellStep : Option Bytes → StoreEv → Option Bytes → Prop where
  | write (c : Option Bytes) (v : Bytes) : CellStep c (.write v) (some v)
  | relaunch (c : Option Bytes) : CellStep c .relaunch c
  | kept (c : Option Bytes) (v : Bytes) (t : Torn) : CellStep c (.interrupted v t) c
  | stored (c : Option Bytes) (v : Bytes) (t : Torn) : CellStep c (.interrupted v t) (some v)

/-- The single cell: a history. -/
inductive CellRun : Option Bytes → List StoreEv → Option Bytes → Prop where
  | nil (c : Option Bytes) : CellRun c [] c
  | cons {c c' c'' : Option Bytes} {e : StoreEv} {es : List StoreEv} :
      CellStep c e c' → CellRun c' es c'' → CellRun c (e :: es) c''

/-- The last write of a history without interrupted writes, starting from cell contents `c`. -/
def lastWrite (c : Option Bytes) : List StoreEv → Option Bytes
  | [] => c
  | .write v :: es => lastWrite (some v) es
  | .relaunch :: es => lastWrite c es
  | .interrupted _ _ :: es => lastWrite c es

def StoreEv.isInterrupted : StoreEv → Bool
  | .interrupted _ _ => true
  | _ => false

end Spec
