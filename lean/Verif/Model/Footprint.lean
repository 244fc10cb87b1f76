import Verif.Model.BFS
import Verif.Model.Utils
/-!
# `IsInsideFootprint` and `get_2d_footprint_cells` (src/utils/utils.cpp:415-448, 744-920)

`double` is ℚ (exact).  The sine and cosine of the heading are inputs.  A `std::set` of cells is a list, of which only membership matters.
-/

namespace Sbpl.Fp
open Utils

abbrev Pt := ℚ × ℚ
abbrev Cell := Int × Int

/-- does the edge from `p1` to `p2` change `counter`? (utils.cpp:425-435) -/
def crosses (pt p1 p2 : Pt) : Bool :=
  decide (pt.2 > min p1.2 p2.2) && (decide (pt.2 ≤ max p1.2 p2.2) && (decide (pt.1 ≤ max p1.1 p2.1) && (decide (p1.2 ≠ p2.2) &&
    (decide (p1.1 = p2.1) || decide (pt.1 ≤ (pt.2 - p1.2) * (p2.1 - p1.1) / (p2.2 - p1.2) + p1.1)))))

/-- the loop: `p1` is the previous vertex (utils.cpp:424-437); the list are the remaining p2 -/
def insideLoop (pt : Pt) : Pt → List Pt → Nat → Nat
  | _, [], counter => counter
  | p1, p2 :: l, counter => insideLoop pt p2 l (if crosses pt p1 p2 then counter + 1 else counter)

/-- IsInsideFootprint (utils.cpp:415-448); `none`: `at(0)` of an empty vector raises an exception -/
def isInside (pt : Pt) (poly : List Pt) : Option Bool :=
  match poly with
  | [] => none
  | p :: l => some (decide (insideLoop pt p (l ++ [p]) 0 % 2 ≠ 0))

/-! ## Cells of a footprint -/

/-- the loop of the line algorithm over `x` (utils.cpp:872-903), without exchange of coordinates; `n` cells are left -/
def lineLoop (x1 deltax deltay ystep : Int) : Nat → Int → Int → Int → List Cell
  | 0, _, _, _ => []
  | n + 1, x, y, error =>
    let e := error - deltay
    if e < 0 ∧ x ≠ x1 then
      (x, y) :: (if error < -e then (x, y + ystep) else (x + 1, y)) :: lineLoop x1 deltax deltay ystep n (x + 1) (y + ystep) (e + deltax)
    else (x, y) :: lineLoop x1 deltax deltay ystep n (x + 1) y e

/-- ... from the left to the right end (utils.cpp:859-871) -/
def lineLR (x0 y0 x1 y1 : Int) : List Cell :=
  let p := if x0 > x1 then ((x1, y1), (x0, y0)) else ((x0, y0), (x1, y1))
  let deltax := p.2.1 - p.1.1
  let deltay := |p.2.2 - p.1.2|
  lineLoop p.2.1 deltax deltay (if p.1.2 < p.2.2 then 1 else -1) (deltax + 1).toNat p.1.1 p.1.2 (deltax / 2)

/-- the cells plotted for a line (utils.cpp:844-904) -/
def plotLine (p q : Cell) : List Cell :=
  if |q.2 - p.2| > |q.1 - p.1| then (lineLR p.2 p.1 q.2 q.1).map (fun c => (c.2, c.1)) else lineLR p.1 p.2 q.1 q.2

/-- the plotting of all lines (utils.cpp:842-905), for the vertices of the closed polygon -/
def plotAll : List Cell → List Cell
  | p :: q :: l => plotLine p q ++ plotAll (q :: l)
  | _ => []

structure Box where
  minx : Int
  maxx : Int
  miny : Int
  maxy : Int

/-- the bounding box (utils.cpp:810-828) -/
def bounds (ps : List Cell) : Box :=
  ps.foldl (fun b p => ⟨if p.1 < b.minx then p.1 else b.minx, if p.1 > b.maxx then p.1 else b.maxx, if p.2 < b.miny then p.2 else b.miny, if p.2 > b.maxy then p.2 else b.maxy⟩)
    ⟨INFINITECOST, -INFINITECOST, INFINITECOST, -INFINITECOST⟩

/-- cells and a ghost flag: the queue of the search was full at some time -/
structure Result where
  cells : List Cell
  full : Bool

/-- everything after the discretisation of the vertices (utils.cpp:830-920); `fuel` bounds the passes of the search, `d` is the initial content of its arrays -/
def fill (fuel : Nat) (d : Int) (ps : List Cell) : Option Result :=
  let b := bounds ps
  let sx := (b.maxx - b.minx + 1) + 2
  let sy := (b.maxy - b.miny + 1) + 2
  let plotted := plotAll ((ps ++ ps.take 1).map (fun p => (p.1 - b.minx + 1, p.2 - b.miny + 1)))
  let grid : Int → Int → Int := fun x y => if (x, y) ∈ plotted then 1 else 0
  match (BFS.B2.mk0 sx.toNat sy.toNat 1 (-1) d).fromPoint grid 0 0 fuel with
  | none => none
  | some (_, bfs) =>
    let inner := ((List.range sx.toNat).flatMap (fun i => (List.range sy.toNat).map (fun j => (i, j)))).filter
      (fun c => decide (1 ≤ c.1 ∧ (c.1 : Int) < sx - 1 ∧ 1 ≤ c.2 ∧ (c.2 : Int) < sy - 1 ∧ bfs.getDistance c.1 c.2 < 0))
    some ⟨(plotted ++ inner.map (fun c => ((c.1 : Int), (c.2 : Int)))).map (fun c => (c.1 - 1 + b.minx, c.2 - 1 + b.miny)), bfs.st.rej⟩

/-- discretisation of a vertex coordinate (utils.cpp:819-823) -/
def discVertex (c res : ℚ) : Int := if c > 0 then trunc (c / res + 1 / 2) else trunc (c / res - 1 / 2)

/-- get_2d_footprint_cells with a set (utils.cpp:791-920): the cells added for the pose (x, y) with cosine `cth` and sine `sth` -/
def footprint (fuel : Nat) (d : Int) (polygon : List Pt) (x y cth sth res : ℚ) : Option Result :=
  if polygon.length ≤ 1 then some ⟨[(contXY2Disc x res, contXY2Disc y res)], false⟩
  else fill fuel d (polygon.map (fun p => (discVertex (cth * p.1 - sth * p.2 + x) res, discVertex (sth * p.1 + cth * p.2 + y) res)))

/-- get_2d_motion_cells (utils.cpp:744-771): the cells of the footprints at the poses `(x, y, cos, sin)` that are not in the first one. (The C++ vector is sorted; here only membership counts.) -/
def motion (fuel : Nat) (d : Int) (polygon : List Pt) (res : ℚ) (poses : List (ℚ × ℚ × ℚ × ℚ)) : Option (List Cell) :=
  match poses with
  | [] => some []
  | p :: ps =>
    match footprint fuel d polygon p.1 p.2.1 p.2.2.1 p.2.2.2 res with
    | none => none
    | some first =>
      match ps.mapM (fun q => footprint fuel d polygon q.1 q.2.1 q.2.2.1 q.2.2.2 res) with
      | none => none
      | some rs => some (((first :: rs).flatMap (fun r => r.cells)).filter (fun c => decide (c ∉ first.cells)))

end Sbpl.Fp
