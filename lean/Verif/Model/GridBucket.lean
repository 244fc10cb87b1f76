import Verif.Model.GridSearch
import Verif.Model.SlidingBucket
/-!
# `SBPL2DGridSearch` with sliding buckets as OPEN (src/utils/2Dgridsearch.cpp:125-160, 703-880)

This is the variant that the (x, y, theta) lattice uses for its heuristics.  Modelled: setOPENdatastructure(SLIDINGBUCKETS), search,
search_withslidingbuckets, and getlowerboundoncostfromstart_inmm (shared with the heap).  Simplifications: as in
`Verif.Model.GridSearch`; the state of the object after an exception is not modelled; the object is switched to the buckets before its
first search and stays so (the heap field of the embedded `Grid2D` is unused).
-/

namespace Sbpl

/-- exceptions and undefined behaviour -/
inductive GBErr where
  | bucket (e : SBErr)
  | grid (e : GErr)
  | noTermination
deriving DecidableEq, Repr

/-- the object: the fields of `Grid2D` and OPEN2DBLIST_ -/
structure GridB where
  s : Grid2D
  q : SBuck

namespace GridB

/-- setOPENdatastructure(SLIDINGBUCKETS) on a new object (2Dgridsearch.cpp:125-160): 255 * maxdistance buckets of at most
max(1000, width + height) elements, allocated from `dyn` on -/
def init (w h ds mm0 den dyn : Nat) : GridB :=
  let s := Grid2D.init w h ds mm0 den
  { s := s, q := SBuck.mk0 (255 * (gridDirs.map s.dist).foldl max 0) (max 1000 (s.W + s.H)) dyn }

/-- update of a neighbour (2Dgridsearch.cpp:846-857) -/
def relax (b : GridB) (i j c : Nat) : Except GBErr GridB :=
  if b.s.it j ≠ b.s.iter ∨ b.s.g j > c + b.s.g i then
    let v := min INFINITECOST (c + b.s.g i)
    match b.q.insert j v with
    | .ok q => .ok { s := { b.s with it := upd b.s.it j b.s.iter, g := upd b.s.g j v }, q := q }
    | .error e => .error (.bucket e)
  else .ok b

/-- loop over the directions (2Dgridsearch.cpp:818-858) -/
def expandDirs (grid : Int → Int → Nat) (thr : Nat) (cl : Nat → Bool) (i : Nat) : List GDir → GridB → Except GBErr GridB
  | [], b => .ok b
  | d :: ds, b =>
    let nx := b.s.px i + d.dx
    let ny := b.s.py i + d.dy
    if b.s.within nx ny = false then expandDirs grid thr cl i ds b
    else if cl (b.s.sid nx ny) then expandDirs grid thr cl i ds b
    else
      match b.s.moveCost grid thr (b.s.px i) (b.s.py i) d with
      | .error e => .error (.grid e)
      | .ok none => expandDirs grid thr cl i ds b
      | .ok (some c) =>
        match b.relax i (b.s.sid nx ny) c with
        | .error e => .error e
        | .ok b1 => expandDirs grid thr cl i ds b1

/-- condition of the main loop (2Dgridsearch.cpp:786), in exact arithmetic -/
def goOn (b : GridB) (gl : Nat) : Bool :=
  !b.q.isEmpty && decide (((b.s.g gl * b.s.last.factor.2 : Nat) : Int) > b.s.last.factor.1 * b.q.getMinKey)

/-- main loop (2Dgridsearch.cpp:786-859); an element popped a second time is skipped; `fuel` bounds the number of passes -/
def mainLoop (grid : Int → Int → Nat) (thr gl : Nat) : Nat → (Nat → Bool) → GridB → Except GBErr GridB
  | 0, _, b => if b.goOn gl then .error .noTermination else .ok b
  | fuel + 1, cl, b =>
    if b.goOn gl then
      match b.q.pop with
      | .error e => .error (.bucket e)
      | .ok (none, _) => .error (.bucket .oob)
      | .ok (some i, q) =>
        if cl i then mainLoop grid thr gl fuel cl { b with q := q }
        else
          match expandDirs grid thr (upd cl i true) i gridDirs { b with q := q } with
          | .error e => .error e
          | .ok b1 => mainLoop grid thr gl fuel (upd cl i true) b1
    else .ok b

/-- largestcomputedoptf_ (2Dgridsearch.cpp:861-865): the g-value of the state at the head of the list -/
def finish (b : GridB) : Except GBErr GridB :=
  if b.q.isEmpty then .ok { b with s := { b.s with largest := INFINITECOST } }
  else
    match b.q.getMin with
    | .error e => .error (.bucket e)
    | .ok (none, _) => .error (.bucket .oob)
    | .ok (some i, q) => .ok { s := { b.s with largest := b.s.g i }, q := q }

/-- search_withslidingbuckets (2Dgridsearch.cpp:705-880) -/
def searchB (b : GridB) (grid : Int → Int → Nat) (thr : Nat) (st gl : Int × Int) (t : Term) : Except GBErr (Bool × GridB) :=
  let s1 := { b.s with iter := b.s.iter + 1, goal := gl }
  if s1.within st.1 st.2 = false ∨ s1.within gl.1 gl.2 = false then .ok (false, { b with s := s1 })
  else
    let i0 := s1.sid st.1 st.2
    let ig := s1.sid gl.1 gl.2
    let s2 := { s1 with last := t, it := upd (upd s1.it i0 s1.iter) ig s1.iter,
                        g := upd (upd (upd s1.g i0 INFINITECOST) ig INFINITECOST) i0 0 }
    match b.q.reset.insert i0 0 with
    | .error e => .error (.bucket e)
    | .ok q =>
      match mainLoop grid thr ig (16 * (s1.W * s1.H) + 1) (fun _ => false) { s := s2, q := q } with
      | .error e => .error e
      | .ok b1 =>
        match b1.finish with
        | .error e => .error e
        | .ok b2 => .ok (true, b2)

/-- search (2Dgridsearch.cpp:305-327) -/
def search (b : GridB) (grid : Int → Int → Nat) (thr : Nat) (st gl : Int × Int) (t : Term) : Except GBErr (Bool × GridB) :=
  b.searchB grid thr (st.1.tdiv b.s.ds, st.2.tdiv b.s.ds) (gl.1.tdiv b.s.ds, gl.2.tdiv b.s.ds) t

/-- getlowerboundoncostfromstart_inmm (2Dgridsearch.h:141-163) -/
def lowerBound (b : GridB) (x y : Int) : Int := b.s.lowerBound x y

end GridB
end Sbpl
