import Verif.Props.PrimFile
import Verif.Props.XYTPrim
/-!
# Files of motion primitives: concrete cases
-/

namespace Sbpl.PrimFileProps
open Sbpl Scan FileSpec CfgFileProps CfgFileXProps

/-- numbers, headings at the beginning and the end, end cells and poses of the primitives read -/
def primView : Except FileErr (Option (List (Int × RawPrim)) × Text) → Option (List (Int × RawPrim))
  | .ok (some l, _) => some l
  | _ => none

/-- one primitive: a step of one cell (0.5 m) straight ahead -/
def exPrims (last : String) : String := "resolution_m: 0.5
numberofangles: 16
totalnumberofprimitives: 1
primID: 0
startangle_c: 0
endpose_c: 1 0 0
additionalactioncostmult: 2
intermediateposes: 2
0.0 0.0 0.0
" ++ last

/-- the whole file -/
example : primView (readPrims (1 / 2) 16 (exPrims "0.5 0.0 0.0\n").toList) = some [(0, ⟨0, 1, 0, 0, 2, [(0, 0, 0), (1 / 2, 0, 0)]⟩)] := by decide +kernel

/-- **C152b** (violated: a truncated file is rejected) The file cut in the middle of the last pose is accepted; the missing numbers are those read before (here the angle of the last
pose is -0.1, which is the number of its y coordinate). -/
theorem prim_file_cut_accepted :
    primView (readPrims (1 / 2) 16 (exPrims "0.5 -0.1 0.0\n").toList) = some [(0, ⟨0, 1, 0, 0, 2, [(0, 0, 0), (1 / 2, -1 / 10, 0)]⟩)] ∧
    primView (readPrims (1 / 2) 16 (exPrims "0.5 -0.1").toList) = some [(0, ⟨0, 1, 0, 0, 2, [(0, 0, 0), (1 / 2, -1 / 10, Utils.normalizeAngle (-1 / 10))]⟩)] := by decide +kernel

/-- **C152c** (violated: the headings of the primitives are among those of the environment) A heading at the beginning outside 0..15 is accepted; a negative number of primitives as well. -/
theorem prim_file_heading_unchecked :
    primView (readPrims (1 / 2) 16 "resolution_m: 0.5 numberofangles: 16 totalnumberofprimitives: 1 primID: 0 startangle_c: 99 endpose_c: 0 0 0 additionalactioncostmult: 1 intermediateposes: 1 0 0 0".toList) =
      some [(0, ⟨99, 0, 0, 0, 1, [(0, 0, 0)]⟩)] ∧
    primView (readPrims (1 / 2) 16 "resolution_m: 0.5 numberofangles: 16 totalnumberofprimitives: -1".toList) = some [] := by decide +kernel

/-- the hypotheses of `prim_file_read` are met -/
example : ∃ rest, readPrims (1 / 2) 8 ((primFile ['0', '.', '5'] ['8'] ['1'] ([PrimText.mk ['3'] ['2'] ['1'] ['0'] ['0'] ['1'] ['1'] [(['0', '.', '5'], ['0'], ['0'])]].flatMap PrimText.words ++
    [])).flatMap (fun w => ' ' :: w)) = .ok (some [(3, ⟨2, 1, 0, 0, 1, [(1 / 2, 0, 0)]⟩)], rest) := by
  have i0 : IsInt ['0'] ((0 : Nat) : Int) := digit_int (by unfold Digits; decide) (by decide)
  have i1 : IsInt ['1'] ((1 : Nat) : Int) := digit_int (by unfold Digits; decide) (by decide)
  have i2 : IsInt ['2'] ((2 : Nat) : Int) := digit_int (by unfold Digits; decide) (by decide)
  have i3 : IsInt ['3'] ((3 : Nat) : Int) := digit_int (by unfold Digits; decide) (by decide)
  have i8 : IsInt ['8'] ((8 : Nat) : Int) := digit_int (by unfold Digits; decide) (by decide)
  have d0 : IsDec ['0'] ((0 : Nat) : ℚ) := digit_dec (by unfold Digits; decide) (by decide)
  obtain ⟨rest, h, _⟩ := prim_file_read (cs := 1 / 2) (T := 8) (ps := [PrimText.mk ['3'] ['2'] ['1'] ['0'] ['0'] ['1'] ['1'] [(['0', '.', '5'], ['0'], ['0'])]])
    (vs := [(3, ⟨2, 1, 0, 0, 1, [(1 / 2, 0, 0)]⟩)]) (extra := [])
    (layout_join (ws := primFile ['0', '.', '5'] ['8'] ['1'] ([PrimText.mk ['3'] ['2'] ['1'] ['0'] ['0'] ['1'] ['1'] [(['0', '.', '5'], ['0'], ['0'])]].flatMap PrimText.words ++ []))
      (by decide +kernel))
    half_dec (by norm_num) i8 (by decide) i1 (by decide)
    (.cons ⟨⟨i3, by unfold IntRange; decide, i2, by unfold IntRange; decide, i1, by unfold IntRange; decide, i0, by unfold IntRange; decide,
      ⟨0, i0, by unfold IntRange; decide, by decide⟩, i1, by decide, i1, by decide,
      .cons ⟨half_dec, by simpa using d0, ⟨0, by simpa using d0, by decide +kernel⟩, by decide, by decide, by decide⟩ .nil, by decide, by decide, by decide⟩, by decide +kernel⟩ .nil)
  exact ⟨rest, h⟩

end Sbpl.PrimFileProps
