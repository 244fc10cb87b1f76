import Verif.Model.Fifo
/-!
# `sbpl_bfs_2d` and `sbpl_bfs_3d` (src/include/sbpl/utils/sbpl_bfs_2d.h, sbpl_bfs_3d.h)

The two classes are the same program up to the cell type and the list of examined neighbours; the common
loops are modelled once over an arbitrary cell type `α`.  `int` distances are `Int` (no overflow: at most the
number of cells).  The while loop of `compute_distances` runs on an explicit pass budget (`fuel`); `none`
means that the loop is still running after that many passes.
-/

namespace Sbpl
namespace BFS

section generic
variable {α : Type} [DecidableEq α]

/-- `dist_[x][y] = v` -/
def setD (f : α → Int) (a : α) (v : Int) : α → Int := fun b => if b = a then v else f b

/-- The mutable data of a BFS object (sbpl_bfs_2d.h:210-211, sbpl_bfs_3d.h:229-230): queue and distances.  `rej` is a
ghost flag: some `q_->insert` returned false since the last `clear`. -/
structure St (α : Type) where
  q : Fifo α
  dist : α → Int
  rej : Bool

/-- `q_->insert(c)` (the return value is ignored by all callers: sbpl_bfs_2d.h:115, 137, 154, 185, 197) -/
def St.push (s : St α) (c : α) : St α :=
  { s with q := (s.q.insert c).1, rej := s.rej || !(s.q.insert c).2 }

/-- `q_->insert(c); dist_[x][y] = 0;` (sbpl_bfs_2d.h:115-116, 137-138, 154-155; sbpl_bfs_3d.h:129-130,
151-152, 169-170) -/
def St.source (s : St α) (c : α) : St α :=
  { s.push c with dist := setD s.dist c 0 }

/-- body of the successor loop (sbpl_bfs_2d.h:182-186 and 194-198; sbpl_bfs_3d.h:200-204 and 213-217) -/
def visit (free : α → Bool) (cost : Int) (s : St α) (c : α) : St α :=
  if s.dist c < 0 ∧ free c = true then { s with dist := setD s.dist c cost }.push c else s

/-- one pass of `while (!q_->empty())` (sbpl_bfs_2d.h:173-201, sbpl_bfs_3d.h:190-220).  `nb c` are the neighbours of `c`
examined, in order. -/
def pass (nb : α → List α) (free : α → Bool) (s : St α) : St α :=
  match s.q.remove with
  | (q', some c) => (nb c).foldl (visit free (s.dist c + 1)) { s with q := q' }
  | (_, none) => s

/-- `compute_distances` (sbpl_bfs_2d.h:170-202, sbpl_bfs_3d.h:187-221) -/
def computeDistances (nb : α → List α) (free : α → Bool) : Nat → St α → Option (St α)
  | 0, s => if s.q.isEmpty then some s else none
  | n + 1, s => if s.q.isEmpty then some s else computeDistances nb free n (pass nb free s)

end generic

/-! ## 2D -/

/-- the actions `dx, dy` (sbpl_bfs_2d.h:76-86) -/
def acts2 : List (Int × Int) :=
  [-1, 0, 1].flatMap fun x => ([-1, 0, 1] : List Int).filterMap fun y => if x = 0 ∧ y = 0 then none else some (x, y)

/-- the bounds check of sbpl_bfs_2d.h:107, 132, 181 (negated) -/
def inB2 (sx sy : Int) (c : Int × Int) : Bool := !(decide (c.1 < 0) || decide (c.1 ≥ sx) || decide (c.2 < 0) || decide (c.2 ≥ sy))

/-- the neighbours examined when `c` is removed from the queue: with a bounds check only if `c` is on the boundary
(sbpl_bfs_2d.h:176-200) -/
def nb2 (sx sy : Int) (c : Int × Int) : List (Int × Int) :=
  if c.1 = 0 ∨ c.1 = sx - 1 ∨ c.2 = 0 ∨ c.2 = sy - 1 then
    (acts2.map fun a => (c.1 + a.1, c.2 + a.2)).filter (inB2 sx sy)
  else acts2.map fun a => (c.1 + a.1, c.2 + a.2)

/-- all cells in the order of the nested loops of sbpl_bfs_2d.h:150-151, 165-166 -/
def cells2 (sx sy : Nat) : List (Int × Int) :=
  (List.range sx).flatMap fun (x : Nat) => (List.range sy).map fun (y : Nat) => ((x : Int), (y : Int))

/-- `class sbpl_bfs_2d` (sbpl_bfs_2d.h:209-219) -/
structure B2 where
  sx : Nat
  sy : Nat
  thresh : Int
  st : St (Int × Int)

/-- constructor (sbpl_bfs_2d.h:58-88); `d` is the indeterminate initial content of the arrays -/
def B2.mk0 (sx sy : Nat) (thresh : Int) (fifoSize : Int) (d : Int) : B2 :=
  let n : Nat := if fifoSize < 0 then 2 * sx + 2 * sy else fifoSize.toNat
  ⟨sx, sy, thresh, ⟨Fifo.mk0 n (0, 0), fun _ => d, false⟩⟩

/-- `grid[x][y] < thresh_` -/
def B2.free (b : B2) (grid : Int → Int → Int) (c : Int × Int) : Bool := decide (grid c.1 c.2 < b.thresh)

/-- `q_->clear(); clear_distances();` (sbpl_bfs_2d.h:111-112, 163-168) -/
def B2.clear (b : B2) : St (Int × Int) :=
  { q := b.st.q.clear, dist := (cells2 b.sx b.sy).foldl (fun d c => setD d c (-1)) b.st.dist, rej := false }

/-- `compute_distances(grid)`, at most `fuel` passes -/
def B2.finish (b : B2) (grid : Int → Int → Int) (fuel : Nat) (s : St (Int × Int)) : Option (Bool × B2) :=
  (computeDistances (nb2 b.sx b.sy) (b.free grid) fuel s).map fun s' => (true, { b with st := s' })

/-- `compute_distance_from_point` (sbpl_bfs_2d.h:105-120) -/
def B2.fromPoint (b : B2) (grid : Int → Int → Int) (x y : Int) (fuel : Nat) : Option (Bool × B2) :=
  if inB2 b.sx b.sy (x, y) = false then some (false, b)
  else b.finish grid fuel (b.clear.source (x, y))

/-- the loop over the points (sbpl_bfs_2d.h:131-139, sbpl_bfs_3d.h:145-153): `(s, false)` if a point is out of bounds -/
def sources {α : Type} [DecidableEq α] (inB : α → Bool) : List α → St α → St α × Bool
  | [], s => (s, true)
  | c :: cs, s => if inB c = false then (s, false) else sources inB cs (s.source c)

/-- `compute_distance_from_points` (sbpl_bfs_2d.h:122-143) -/
def B2.fromPoints (b : B2) (grid : Int → Int → Int) (xs ys : List Int) (fuel : Nat) : Option (Bool × B2) :=
  if xs.length ≠ ys.length then some (false, b)
  else
    match sources (inB2 b.sx b.sy) (xs.zip ys) b.clear with
    | (s, false) => some (false, { b with st := s })
    | (s, true) => b.finish grid fuel s

/-- `compute_distance_from_obs` (sbpl_bfs_2d.h:145-161); the returned flag is a constant (the method is void) -/
def B2.fromObs (b : B2) (grid : Int → Int → Int) (fuel : Nat) : Option (Bool × B2) :=
  b.finish grid fuel ((cells2 b.sx b.sy).foldl (fun s c => if grid c.1 c.2 ≥ b.thresh then s.source c else s) b.clear)

/-- `get_distance` (sbpl_bfs_2d.h:204-207) -/
def B2.getDistance (b : B2) (x y : Nat) : Int := b.st.dist (x, y)

/-- A call of one of the three methods, with the caller's grid. -/
inductive Call2 where
  | fromPoint (grid : Int → Int → Int) (x y : Int)
  | fromPoints (grid : Int → Int → Int) (xs ys : List Int)
  | fromObs (grid : Int → Int → Int)

/-- Perform a call (sbpl_bfs_2d.h:105-161). -/
def B2.call (b : B2) (fuel : Nat) : Call2 → Option (Bool × B2)
  | .fromPoint g x y => b.fromPoint g x y fuel
  | .fromPoints g xs ys => b.fromPoints g xs ys fuel
  | .fromObs g => b.fromObs g fuel

/-- A history of calls on one object. -/
def B2.calls (b : B2) (fuel : Nat) : List Call2 → Option B2
  | [] => some b
  | k :: ks => (b.call fuel k).bind fun r => r.2.calls fuel ks

/-! ## 3D -/

abbrev Cell3 := Int × Int × Int

/-- the actions `dx, dy, dz` (sbpl_bfs_3d.h:82-98) -/
def acts3 : List Cell3 :=
  [-1, 0, 1].flatMap fun x => [-1, 0, 1].flatMap fun y =>
    ([-1, 0, 1] : List Int).filterMap fun z => if x = 0 ∧ y = 0 ∧ z = 0 then none else some (x, y, z)

/-- the bounds check of sbpl_bfs_3d.h:121, 146, 199 (negated) -/
def inB3 (sx sy sz : Int) (c : Cell3) : Bool :=
  !(decide (c.1 < 0) || decide (c.1 ≥ sx) || decide (c.2.1 < 0) || decide (c.2.1 ≥ sy) ||
    decide (c.2.2 < 0) || decide (c.2.2 ≥ sz))

/-- the neighbours examined (sbpl_bfs_3d.h:193-219) -/
def nb3 (sx sy sz : Int) (c : Cell3) : List Cell3 :=
  if c.1 = 0 ∨ c.1 = sx - 1 ∨ c.2.1 = 0 ∨ c.2.1 = sy - 1 ∨ c.2.2 = 0 ∨ c.2.2 = sz - 1 then
    (acts3.map fun a => (c.1 + a.1, c.2.1 + a.2.1, c.2.2 + a.2.2)).filter (inB3 sx sy sz)
  else acts3.map fun a => (c.1 + a.1, c.2.1 + a.2.1, c.2.2 + a.2.2)

/-- all cells in the order of the nested loops (sbpl_bfs_3d.h:164-166, 181-183) -/
def cells3 (sx sy sz : Nat) : List Cell3 :=
  (List.range sx).flatMap fun (x : Nat) => (List.range sy).flatMap fun (y : Nat) =>
    (List.range sz).map fun (z : Nat) => ((x : Int), (y : Int), (z : Int))

/-- `class sbpl_bfs_3d` (sbpl_bfs_3d.h:228-241) -/
structure B3 where
  sx : Nat
  sy : Nat
  sz : Nat
  thresh : Int
  st : St Cell3

/-- constructor (sbpl_bfs_3d.h:60-100) -/
def B3.mk0 (sx sy sz : Nat) (thresh : Int) (fifoSize : Int) (d : Int) : B3 :=
  let n : Nat := if fifoSize < 0 then 2 * sx * sy + 2 * sx * sz + 2 * sy * sz else fifoSize.toNat
  ⟨sx, sy, sz, thresh, ⟨Fifo.mk0 n (0, 0, 0), fun _ => d, false⟩⟩

/-- `grid[x][y][z] < thresh_` -/
def B3.free (b : B3) (grid : Int → Int → Int → Int) (c : Cell3) : Bool := decide (grid c.1 c.2.1 c.2.2 < b.thresh)

/-- `q_->clear(); clear_distances();` (sbpl_bfs_3d.h:125-126, 179-185) -/
def B3.clear (b : B3) : St Cell3 :=
  { q := b.st.q.clear, dist := (cells3 b.sx b.sy b.sz).foldl (fun d c => setD d c (-1)) b.st.dist, rej := false }

/-- `compute_distances(grid)`, at most `fuel` passes -/
def B3.finish (b : B3) (grid : Int → Int → Int → Int) (fuel : Nat) (s : St Cell3) : Option (Bool × B3) :=
  (computeDistances (nb3 b.sx b.sy b.sz) (b.free grid) fuel s).map fun s' => (true, { b with st := s' })

/-- `compute_distance_from_point` (sbpl_bfs_3d.h:119-134) -/
def B3.fromPoint (b : B3) (grid : Int → Int → Int → Int) (x y z : Int) (fuel : Nat) : Option (Bool × B3) :=
  if inB3 b.sx b.sy b.sz (x, y, z) = false then some (false, b)
  else b.finish grid fuel (b.clear.source (x, y, z))

/-- `compute_distance_from_points` (sbpl_bfs_3d.h:136-157) -/
def B3.fromPoints (b : B3) (grid : Int → Int → Int → Int) (xs ys zs : List Int) (fuel : Nat) : Option (Bool × B3) :=
  if xs.length ≠ ys.length ∨ xs.length ≠ zs.length then some (false, b)
  else
    match sources (inB3 b.sx b.sy b.sz) (xs.zip (ys.zip zs)) b.clear with
    | (s, false) => some (false, { b with st := s })
    | (s, true) => b.finish grid fuel s

/-- `compute_distance_from_obs` (sbpl_bfs_3d.h:159-177) -/
def B3.fromObs (b : B3) (grid : Int → Int → Int → Int) (fuel : Nat) : Option (Bool × B3) :=
  b.finish grid fuel ((cells3 b.sx b.sy b.sz).foldl
    (fun s c => if grid c.1 c.2.1 c.2.2 ≥ b.thresh then s.source c else s) b.clear)

/-- `get_distance` (sbpl_bfs_3d.h:223-226) -/
def B3.getDistance (b : B3) (x y z : Nat) : Int := b.st.dist (x, y, z)

/-- A call of one of the three methods. -/
inductive Call3 where
  | fromPoint (grid : Int → Int → Int → Int) (x y z : Int)
  | fromPoints (grid : Int → Int → Int → Int) (xs ys zs : List Int)
  | fromObs (grid : Int → Int → Int → Int)

/-- Perform a call (sbpl_bfs_3d.h:119-177). -/
def B3.call (b : B3) (fuel : Nat) : Call3 → Option (Bool × B3)
  | .fromPoint g x y z => b.fromPoint g x y z fuel
  | .fromPoints g xs ys zs => b.fromPoints g xs ys zs fuel
  | .fromObs g => b.fromObs g fuel

/-- A history of calls on one object. -/
def B3.calls (b : B3) (fuel : Nat) : List Call3 → Option B3
  | [] => some b
  | k :: ks => (b.call fuel k).bind fun r => r.2.calls fuel ks

end BFS
end Sbpl
