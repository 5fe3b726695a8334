import Mathlib.Tactic.Common

/-!
# Model of the device table, boripserver/devices.go

The driver is a list: the name that `rtl.GetDeviceName` returns for each index.  A Go map is a list of pairs without repeated
keys; iteration over it may take any order.
-/

namespace Verif.Borip

/-- The fields `rtlIndex` and `inUse` of `device`, boripserver/devices.go:18-26 (the name is the key of the table). -/
structure Entry where
  rtlIndex : Nat
  inUse : Bool
  deriving DecidableEq

/-- Assignment to an element of a map. -/
def mapSet (m : List (String × Entry)) (k : String) (v : Entry) : List (String × Entry) := m.filter (·.1 ≠ k) ++ [(k, v)]

/-- The variables `devices` and `defaultDevice`, boripserver/devices.go:28-33. -/
structure Table where
  devices : List (String × Entry)
  defaultDevice : String

/-- The body of the loop boripserver/devices.go:39-53. -/
def register (t : Table) (name : String) (i : Nat) : Table :=
  if name = "" then t
  else
    { devices := mapSet t.devices name ⟨i, false⟩
      defaultDevice := if t.defaultDevice = "" then name else t.defaultDevice }

/-- `init`, boripserver/devices.go:35-54. -/
def initTable (names : List String) : Table := names.zipIdx.foldl (fun t x => register t x.1 x.2) ⟨[], ""⟩

/-- `deviceList`, boripserver/devices.go:56-69: what it may return. -/
def IsDeviceList (t : Table) (l : List (String × Entry)) : Prop := ∃ order : List (String × Entry), order.Perm t.devices ∧ l = order.filter (! ·.2.inUse)

end Verif.Borip
