import Verif.Model.Heap
import Mathlib.Order.Defs.LinearOrder
import Mathlib.Algebra.Order.Ring.Abs
/-!
# `SBPL2DGridSearch` with a heap as OPEN (src/utils/2Dgridsearch.cpp, src/include/sbpl/utils/2Dgridsearch.h)

Modelled: constructor, search/search_withheap with all termination conditions, getlowerboundoncostfromstart_inmm,
getlargestcomputedoptimalf_inmm, getCost (downsampling).
Not modelled here: search_exp and search_withbuckets (never called).
Simplifications: `int` is `Nat`/`Int` (no overflow); `float` arithmetic is exact: a cell is `mm / den` millimetres wide, the
termination factors are exact fractions; the pointer to the search state of cell (x, y) is the number `x + W * y`.
-/

namespace Sbpl

/-- exceptions and undefined behaviour of the grid search -/
inductive GErr where
  | heap (e : HeapErr)
  | oob
  | noTermination
deriving DecidableEq, Repr

/-- one direction: dx_, dy_, (dx0intersects_, dy0intersects_), (dx1intersects_, dy1intersects_), and `dir <= 7` -/
structure GDir where
  dx : Int
  dy : Int
  i0 : Int × Int
  i1 : Int × Int
  small : Bool
deriving DecidableEq, Repr

/-- computedxy (2Dgridsearch.cpp:210-276); the intersect entries of directions 0..7 are never read -/
def gridDirs : List GDir :=
  [⟨1, 1, (-1, -1), (0, 0), true⟩, ⟨1, 0, (-1, -1), (0, 0), true⟩, ⟨1, -1, (-1, -1), (0, 0), true⟩,
   ⟨0, 1, (-1, -1), (0, 0), true⟩, ⟨0, -1, (-1, -1), (0, 0), true⟩, ⟨-1, 1, (-1, -1), (0, 0), true⟩,
   ⟨-1, 0, (-1, -1), (0, 0), true⟩, ⟨-1, -1, (-1, -1), (0, 0), true⟩,
   ⟨2, 1, (1, 0), (1, 1), false⟩, ⟨1, 2, (0, 1), (1, 1), false⟩, ⟨-1, 2, (0, 1), (-1, 1), false⟩,
   ⟨-2, 1, (-1, 0), (-1, 1), false⟩, ⟨-2, -1, (-1, 0), (-1, -1), false⟩, ⟨-1, -2, (0, -1), (-1, -1), false⟩,
   ⟨1, -2, (0, -1), (1, -1), false⟩, ⟨2, -1, (1, 0), (1, -1), false⟩]

/-- SBPL_2DGRIDSEARCH_TERM_CONDITION (2Dgridsearch.h:47-54) -/
inductive Term where
  | optPath | percent20 | twoTimes | threeTimes | allCells
deriving DecidableEq, Repr

/-- term_factor (2Dgridsearch.cpp:377-397) as a fraction -/
def Term.factor : Term → Nat × Nat
  | .optPath => (1, 1)
  | .percent20 => (5, 6)
  | .twoTimes => (1, 2)
  | .threeTimes => (1, 3)
  | .allCells => (0, 1)

/-- The search object (2Dgridsearch.h:190-240).  `W`, `H` are width_, height_; `ds` is downsample_; `last` is
term_condition_usedlast. -/
structure Grid2D where
  W : Nat
  H : Nat
  ds : Nat
  mm : Nat
  den : Nat
  g : Nat → Nat
  it : Nat → Nat
  opn : Heap Int
  iter : Nat
  goal : Int × Int
  largest : Nat
  last : Term

namespace Grid2D

/-- dxy_distance_mm_ (2Dgridsearch.cpp:279-291) -/
def dist (s : Grid2D) (d : GDir) : Nat :=
  if d.dx ≠ 0 ∧ d.dy ≠ 0 then
    if d.small then s.mm * 1414 / (s.den * 1000) else s.mm * 2236 / (s.den * 1000)
  else s.mm / s.den

/-- SBPL_2DGRIDSEARCH_HEUR2D (2Dgridsearch.h:62) -/
def heur (s : Grid2D) (x y : Int) : Nat := s.mm * (max |x - s.goal.1| |y - s.goal.2|).toNat / s.den

/-- withinMap (2Dgridsearch.h:170-173) -/
def within (s : Grid2D) (x y : Int) : Bool := decide (0 ≤ x ∧ 0 ≤ y ∧ x < s.W ∧ y < s.H)

/-- getCostT<N>, getCostN (2Dgridsearch.cpp:45-78): the largest cost in the block of `ds * ds` cells.  The caller's map is the
function `grid`. -/
def cost (ds : Nat) (grid : Int → Int → Nat) (x y : Int) : Nat :=
  (List.range ds).foldl (fun m (dy : Nat) => (List.range ds).foldl (fun m (dx : Nat) => max m (grid (x * ds + dx) (y * ds + dy))) m)
    (grid (x * ds) (y * ds))

/-- getCost on a cell of the search's own grid; a cell outside it is an access outside the caller's map -/
def costAt (s : Grid2D) (grid : Int → Int → Nat) (x y : Int) : Except GErr Nat :=
  if s.within x y then .ok (cost s.ds grid x y) else .error .oob

/-- searchStates2D_[x][y] -/
def sid (s : Grid2D) (x y : Int) : Nat := x.toNat + s.W * y.toNat
/-- fields x, y of a search state -/
def px (s : Grid2D) (i : Nat) : Int := (i % s.W : Nat)
def py (s : Grid2D) (i : Nat) : Int := (i / s.W : Nat)

/-- cost of the move `d` from (x, y) (2Dgridsearch.cpp:424-441); `none`: outside the map or obstacle -/
def moveCost (s : Grid2D) (grid : Int → Int → Nat) (thr : Nat) (x y : Int) (d : GDir) : Except GErr (Option Nat) :=
  if s.within (x + d.dx) (y + d.dy) = false then .ok none
  else
    match s.costAt grid (x + d.dx) (y + d.dy), s.costAt grid x y with
    | .error e, _ => .error e
    | _, .error e => .error e
    | .ok a, .ok b =>
      if d.small then .ok (if max a b ≥ thr then none else some ((max a b + 1) * s.dist d))
      else
        match s.costAt grid (x + d.i0.1) (y + d.i0.2), s.costAt grid (x + d.i1.1) (y + d.i1.2) with
        | .error e, _ => .error e
        | _, .error e => .error e
        | .ok c0, .ok c1 =>
          let m := max (max (max a b) c0) c1
          .ok (if m ≥ thr then none else some ((m + 1) * s.dist d))

/-- the key of a state: g, plus h for the OPTPATHFOUND search (2Dgridsearch.cpp:371-374, 451-454) -/
def key (s : Grid2D) (i : Nat) : Nat :=
  if s.last = .optPath then s.g i + s.heur (s.px i) (s.py i) else s.g i

/-- update of a neighbour (2Dgridsearch.cpp:446-461) -/
def relax (s : Grid2D) (i j c : Nat) : Except GErr Grid2D :=
  if s.it j ≠ s.iter ∨ s.g j > c + s.g i then
    let s1 := { s with it := upd s.it j s.iter, g := upd s.g j (min INFINITECOST (c + s.g i)) }
    match (if s1.opn.idx j = 0 then s1.opn.insert j (s1.key j) else s1.opn.update j (s1.key j)) with
    | .ok h => .ok { s1 with opn := h }
    | .error e => .error (.heap e)
  else .ok s

/-- loop over the directions (2Dgridsearch.cpp:417-462); `cl` is pbClosed (tested before the cost is computed) -/
def expandDirs (grid : Int → Int → Nat) (thr : Nat) (cl : Nat → Bool) (i : Nat) : List GDir → Grid2D → Except GErr Grid2D
  | [], s => .ok s
  | d :: ds, s =>
    let nx := s.px i + d.dx
    let ny := s.py i + d.dy
    if s.within nx ny = false then expandDirs grid thr cl i ds s
    else if cl (s.sid nx ny) then expandDirs grid thr cl i ds s
    else
      match s.moveCost grid thr (s.px i) (s.py i) d with
      | .error e => .error e
      | .ok none => expandDirs grid thr cl i ds s
      | .ok (some c) =>
        match s.relax i (s.sid nx ny) c with
        | .error e => .error e
        | .ok s1 => expandDirs grid thr cl i ds s1

/-- condition of the main loop (2Dgridsearch.cpp:402-403) -/
def goOn (s : Grid2D) (gl : Nat) : Bool :=
  !s.opn.isEmpty && decide (((min INFINITECOST (s.g gl) * s.last.factor.2 : Nat) : Int) >
    s.last.factor.1 * s.opn.getMinKey (INFINITECOST : Int))

/-- main loop (2Dgridsearch.cpp:402-463); `fuel` bounds the number of passes -/
def mainLoop (grid : Int → Int → Nat) (thr gl : Nat) : Nat → (Nat → Bool) → Grid2D → Except GErr Grid2D
  | 0, _, s => if s.goOn gl then .error .noTermination else .ok s
  | fuel + 1, cl, s =>
    if s.goOn gl then
      match s.opn.deleteMin with
      | .error e => .error (.heap e)
      | .ok (i, h) =>
        match expandDirs grid thr (upd cl i true) i gridDirs { s with opn := h } with
        | .error e => .error e
        | .ok s1 => mainLoop grid thr gl fuel (upd cl i true) s1
    else .ok s

/-- initializeSearchState2D (2Dgridsearch.cpp:178-183) -/
def initState (s : Grid2D) (i : Nat) : Grid2D :=
  { s with g := upd s.g i INFINITECOST, it := upd s.it i s.iter, opn := { s.opn with idx := upd s.opn.idx i 0 } }

/-- search_withheap (2Dgridsearch.cpp:329-476); the start and goal are given in cells of the search's grid.  Returns the value
returned. -/
def searchHeap (s : Grid2D) (grid : Int → Int → Nat) (thr : Nat) (st gl : Int × Int) (t : Term) : Except GErr (Bool × Grid2D) :=
  let s1 := { s with iter := s.iter + 1, goal := gl, opn := s.opn.makeEmpty, last := t }
  if s1.within st.1 st.2 = false ∨ s1.within gl.1 gl.2 = false then .ok (false, s1)
  else
    let i0 := s1.sid st.1 st.2
    let ig := s1.sid gl.1 gl.2
    let s2 := (s1.initState i0).initState ig
    let s3 := { s2 with g := upd s2.g i0 0 }
    match s3.opn.insert i0 (s3.key i0) with
    | .error e => .error (.heap e)
    | .ok h =>
      match mainLoop grid thr ig (s.W * s.H) (fun _ => false) { s3 with opn := h } with
      | .error e => .error e
      | .ok s4 => .ok (true, { s4 with largest := if s4.opn.isEmpty then INFINITECOST else (s4.opn.getMinKey (INFINITECOST : Int)).toNat })

/-- search with the heap (2Dgridsearch.cpp:305-327): coordinates of the caller's map, C integer division -/
def search (s : Grid2D) (grid : Int → Int → Nat) (thr : Nat) (st gl : Int × Int) (t : Term) : Except GErr (Bool × Grid2D) :=
  s.searchHeap grid thr (st.1.tdiv s.ds, st.2.tdiv s.ds) (gl.1.tdiv s.ds, gl.2.tdiv s.ds) t

/-- getlowerboundoncostfromstart_inmm (2Dgridsearch.h:141-163) -/
def lowerBound (s : Grid2D) (x y : Int) : Int :=
  let x := x.tdiv s.ds
  let y := y.tdiv s.ds
  let i := s.sid x y
  if s.last = .optPath then
    if s.it i = s.iter ∧ s.g i + s.heur x y ≤ s.largest then s.g i
    else if s.largest < INFINITECOST then (s.largest : Int) - s.heur x y
    else INFINITECOST
  else if s.it i = s.iter ∧ s.g i ≤ s.largest then s.g i
  else s.largest

/-- constructor (2Dgridsearch.cpp:81-131) for a `w * h` map, `1 ≤ ds`; a cell of the map is `mm0 / den` mm wide -/
def init (w h ds mm0 den : Nat) : Grid2D :=
  { W := w / ds, H := h / ds, ds := ds, mm := mm0 * ds, den := den, g := fun _ => INFINITECOST, it := fun _ => 0,
    opn := Heap.mk0 (w / ds * (h / ds)) ⟨0, 0⟩, iter := 0, goal := (-1, -1), largest := 0, last := .allCells }

end Grid2D
end Sbpl
