import Verif.Spec.Nav2D
/-!
# Specification vocabulary for a robot moving over a map
-/

namespace Sbpl.GridSpec

/-- consecutive cells are joined by passable straight moves (16-connected) of the map `grid` -/
inductive Trail (W H : Int) (grid : Int → Int → Nat) (obs : Nat) : List (Int × Int) → Prop
  | one (p : Int × Int) : Trail W H grid obs [p]
  | step {p q : Int × Int} {l : List (Int × Int)} (c : Nat) : Edge W H grid obs true p q c → Trail W H grid obs (q :: l) →
      Trail W H grid obs (p :: q :: l)

end Sbpl.GridSpec
