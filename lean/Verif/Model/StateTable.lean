import Verif.Model.Basic
/-!
# The coordinate ↔ state ID tables of the environments

`EnvironmentNAV2D` (src/discrete_space_information/environment_nav2D.cpp:61-80, 404-479) and the hash variant
of `EnvironmentNAVXYTHETALAT` (environment_navxythetalat.cpp:2615-2755) keep a hash table from coordinates to
entries and a vector from IDs to the same entries.  Both use the same code, so the model is generic in the
coordinate type `κ` and the bin function.
A pointer to an entry is modelled by the entry itself (entries are never modified after creation).
-/

namespace Sbpl

/-- `inthash` (environment_nav2D.cpp:62-73) -/
def inthash (k0 : UInt32) : UInt32 :=
  let k1 := k0 + (k0 <<< 12)
  let k2 := k1 ^^^ (k1 >>> 22)
  let k3 := k2 + (k2 <<< 4)
  let k4 := k3 ^^^ (k3 >>> 9)
  let k5 := k4 + (k4 <<< 10)
  let k6 := k5 ^^^ (k5 >>> 2)
  let k7 := k6 + (k6 <<< 7)
  k7 ^^^ (k7 >>> 12)

/-- conversion of an `int` to `unsigned int` -/
def toU32 (x : Int) : UInt32 := UInt32.ofNat (x % 4294967296).toNat

/-- `EnvNAV2DHashEntry_t` (environment_nav2D.h:75-80) -/
structure HEntry (κ : Type) where
  coord : κ
  id : Nat
deriving DecidableEq, Repr

/-- `StateID2CoordTable` and `Coord2StateIDHashTable` -/
structure StateTable (κ : Type) where
  table : List (HEntry κ)
  bins : Nat → List (HEntry κ)

namespace StateTable
variable {κ : Type} [DecidableEq κ]

/-- fresh tables (InitializeEnvironment, environment_nav2D.cpp:511-520) -/
def empty : StateTable κ := ⟨[], fun _ => []⟩

/-- `GetHashEntry` (environment_nav2D.cpp:404-438) -/
def find (hash : κ → Nat) (t : StateTable κ) (k : κ) : Option (HEntry κ) :=
  (t.bins (hash k)).find? (fun e => decide (e.coord = k))

/-- `CreateNewHashEntry` (environment_nav2D.cpp:440-479) -/
def create (hash : κ → Nat) (t : StateTable κ) (k : κ) : StateTable κ × HEntry κ :=
  let e : HEntry κ := ⟨k, t.table.length⟩
  (⟨t.table ++ [e], upd t.bins (hash k) (t.bins (hash k) ++ [e])⟩, e)

/-- the find-or-create pattern, e.g. `GetStateFromCoord` (environment_nav2D.cpp:1046-1054) -/
def getId (hash : κ → Nat) (t : StateTable κ) (k : κ) : StateTable κ × Nat :=
  match t.find hash k with
  | some e => (t, e.id)
  | none => ((t.create hash k).1, (t.create hash k).2.id)

/-- `StateID2CoordTable[id]`; an ID out of range is undefined behaviour (`none`) -/
def coord (t : StateTable κ) (id : Nat) : Option κ := t.table[id]?.map HEntry.coord

/-- `SizeofCreatedEnv` (environment_nav2D.cpp:1012-1015) -/
def size (t : StateTable κ) : Nat := t.table.length

end StateTable
end Sbpl
