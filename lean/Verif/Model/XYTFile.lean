import Verif.Model.CfgFile
/-!
# InitializeEnv of `EnvironmentNAVXYTHETALATTICE` from a map file and a file of motion primitives

Uniform headings.  The cells covered by the robot are an input (`foot`, a function of the cell size and the pose), as in Model/XYT.
-/

namespace Sbpl

/-- why InitializeEnv fails: a file cannot be read, ReadMotionPrimitives returned false, a heading is out of range, the tables cannot be built -/
inductive XInitErr where
  | file (e : FileErr)
  | prims
  | heading
  | env (e : XErr)
deriving DecidableEq

namespace XInit

/-- the configuration after both files were read (environment_navxythetalat.cpp:1854-1870), with the costs of the primitives as computed in
PrecomputeActionswithCompleteMotionPrimitive (1210-1233).  A negative cost_possibly_circumscribed_thresh is below all costs, as is 0. -/
noncomputable def setupOf (foot : ℚ → ℚ × ℚ × ℚ → List (Int × Int)) (poly : Bool) (f : XFile) (raws : List RawPrim) : XEnv.Setup where
  W := f.W
  H := f.H
  T := f.T.toNat
  cs := f.cs
  obs := f.obs
  inscr := f.inscr
  circ := f.circ.toNat
  poly := poly
  foot := foot f.cs
  prims := raws.map (XPrim.mkPrim f.T.toNat f.vel f.tt)
  map := fun i => f.grid (i % f.W) (i / f.W)
  start := (f.start.1, f.start.2, Utils.contTheta2Disc f.startTheta f.T.toNat)
  goal := (f.goal.1, f.goal.2, Utils.contTheta2Disc f.goalTheta f.T.toNat)

/-- InitializeEnv(sEnvFile, perimeterptsV, sMotPrimFile) (environment_navxythetalat.cpp:1837-1891) and InitGeneral (2013-2027).  With less than one heading every heading is out of
range; the code reads the second file before it notices. -/
noncomputable def initFiles (foot : ℚ → ℚ × ℚ × ℚ → List (Int × Int)) (poly : Bool) (map prims : Scan.Text) : Except XInitErr XEnv :=
  match Scan.readXYT map with
  | .error e => .error (.file e)
  | .ok (f, _) =>
    if f.T ≤ 0 then .error .heading
    else
      match Scan.readPrims f.cs f.T.toNat prims with
      | .error e => .error (.file e)
      | .ok (none, _) => .error .prims
      | .ok (some l, _) =>
        if ¬ (0 ≤ Utils.contTheta2Disc f.startTheta f.T.toNat ∧ Utils.contTheta2Disc f.startTheta f.T.toNat < f.T) then .error .heading
        else if ¬ (0 ≤ Utils.contTheta2Disc f.goalTheta f.T.toNat ∧ Utils.contTheta2Disc f.goalTheta f.T.toNat < f.T) then .error .heading
        else
          match XEnv.init (setupOf foot poly f (l.map Prod.snd)) with
          | .error e => .error (.env e)
          | .ok st => .ok st

end XInit
end Sbpl
