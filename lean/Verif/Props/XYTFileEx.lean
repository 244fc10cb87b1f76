import Verif.Props.XYTFile
import Verif.Props.XYTPrimEx
/-!
# From files to the lattice: a concrete case

Two headings; a map of 2 × 1 cells of half a metre; one primitive drives a cell forward, the other one turns in place.
-/

namespace Sbpl.XFileProps
open Sbpl Scan FileSpec CfgFileProps CfgFileXProps PrimFileProps XSpec XEnv

/-- the words of the map file -/
def exMap : List Word := xytFile ['2'] ['1'] ["NumThetaDirs:".toList, ['2']] ['9'] ['8'] ['7'] ['0', '.', '5'] ['1'] ['2']
      ['a'] ['0'] ['0'] ['0'] ['b'] ['0', '.', '5'] ['0'] ['0'] ['c'] (rows 2 1 (fun _ _ => ['3']) ++ [])

/-- the two primitives -/
def exPs : List PrimText := [⟨['0'], ['0'], ['1'], ['0'], ['0'], ['1'], ['2'], [(['0'], ['0'], ['0']), (['0', '.', '5'], ['0'], ['0'])]⟩,
  ⟨['1'], ['1'], ['0'], ['0'], ['0'], ['1'], ['2'], [(['0'], ['0'], ['3']), (['0'], ['0'], ['0'])]⟩]

def exVs : List (Int × RawPrim) := [(0, ⟨0, 1, 0, 0, 1, [(0, 0, 0), (1 / 2, 0, 0)]⟩), (1, ⟨1, 0, 0, 0, 1, [(0, 0, 3), (0, 0, 0)]⟩)]

/-- the words of the file of primitives -/
def exPrim : List Word := primFile ['0', '.', '5'] ['2'] ['2'] (exPs.flatMap PrimText.words ++ [])

def textOf (ws : List Word) : Text := ws.flatMap (fun w => ' ' :: w)

/-- the hypotheses of `files_to_lattice_plan` and `files_accepted_iff` are met; the environment is created -/
theorem ex_files : (∃ rest, readPrims (1 / 2) 2 (textOf exPrim) = .ok (some exVs, rest)) ∧ ∃ stx s, XInit.initFiles pointFoot false (textOf exMap) (textOf exPrim) = .ok stx ∧ Hist s [] stx ∧
    Described pointFoot false 2 1 2 9 8 7 (1 / 2) 1 2 (0, 0, 0) (1, 0, 0) (fun _ _ => 3) (exVs.map Prod.snd) s ∧ PrimsFit (exVs.map Prod.snd) ∧
    (∀ v ∈ exVs, RawExact (1 / 2) v.2 ∧ 1 ≤ v.2.mult) := by
  have d0 : IsDec ['0'] 0 := by simpa using digit_dec (c := '0') (n := 0) (by unfold Digits; decide) (by decide)
  have d1 : IsDec ['1'] 1 := by simpa using digit_dec (c := '1') (n := 1) (by unfold Digits; decide) (by decide)
  have d2 : IsDec ['2'] 2 := by simpa using digit_dec (c := '2') (n := 2) (by unfold Digits; decide) (by decide)
  have d3 : IsDec ['3'] 3 := by simpa using digit_dec (c := '3') (n := 3) (by unfold Digits; decide) (by decide)
  have i0 : IsInt ['0'] 0 := by simpa using digit_int (c := '0') (n := 0) (by unfold Digits; decide) (by decide)
  have i1 : IsInt ['1'] 1 := by simpa using digit_int (c := '1') (n := 1) (by unfold Digits; decide) (by decide)
  have i2 : IsInt ['2'] 2 := by simpa using digit_int (c := '2') (n := 2) (by unfold Digits; decide) (by decide)
  have i3 : IsInt ['3'] 3 := by simpa using digit_int (c := '3') (n := 3) (by unfold Digits; decide) (by decide)
  have i7 : IsInt ['7'] 7 := by simpa using digit_int (c := '7') (n := 7) (by unfold Digits; decide) (by decide)
  have i8 : IsInt ['8'] 8 := by simpa using digit_int (c := '8') (n := 8) (by unfold Digits; decide) (by decide)
  have i9 : IsInt ['9'] 9 := by simpa using digit_int (c := '9') (n := 9) (by unfold Digits; decide) (by decide)
  have f1 : ⌊(1 / 2 / (1 / 2) : ℚ)⌋ = 1 := by norm_num
  have f0 : ⌊((0 : ℚ) / (1 / 2) : ℚ)⌋ = 0 := by norm_num
  have c0 : Utils.contTheta2Disc 0 ((2 : Nat) : Int) = 0 := by decide +kernel
  have N : XNumbers ['2'] ['1'] ["NumThetaDirs:".toList, ['2']] ['9'] ['8'] ['7'] ['0', '.', '5'] ['1'] ['2'] ['a'] ['0'] ['0'] ['0'] ['b'] ['0', '.', '5'] ['0'] ['0'] ['c']
      2 1 ((2 : Nat) : Int) 9 8 7 (1 / 2) 1 2 0 0 0 (1 / 2) 0 0 :=
    ⟨by decide, i2, i1, by decide, by decide, .given i2 (by unfold IntRange; decide) (by decide), i9, by unfold IntRange; decide, i8, by unfold IntRange; decide, i7,
      by unfold IntRange; decide, half_dec, by norm_num, d1, d2, d0, d0, d0, half_dec, d0, d0, by norm_num, by norm_num, by norm_num, by norm_num⟩
  have L : Layout exMap (textOf exMap) := layout_join (by decide +kernel)
  have Lp : Layout exPrim (textOf exPrim) := layout_join (by decide +kernel)
  have hp : List.Forall₂ (fun (p : PrimText) (v : Int × RawPrim) => Denotes 2 p v.1 v.2 ∧ XPrim.checkEnd (1 / 2) 2 v.2 = .ok true) exPs exVs := by
    refine .cons ⟨⟨i0, by unfold IntRange; decide, i0, by unfold IntRange; decide, i1, by unfold IntRange; decide, i0, by unfold IntRange; decide,
      ⟨0, i0, by unfold IntRange; decide, by decide⟩, i1, by decide, i2, by decide,
      .cons ⟨d0, d0, ⟨0, d0, by decide +kernel⟩, by decide, by decide, by decide⟩
        (.cons ⟨half_dec, d0, ⟨0, d0, by decide +kernel⟩, by decide, by decide, by decide⟩ .nil), by decide, by decide, by decide⟩, by decide +kernel⟩
      (.cons ⟨⟨i1, by unfold IntRange; decide, i1, by unfold IntRange; decide, i0, by unfold IntRange; decide, i0, by unfold IntRange; decide,
      ⟨0, i0, by unfold IntRange; decide, by decide⟩, i1, by decide, i2, by decide,
      .cons ⟨d0, d0, ⟨3, d3, by decide +kernel⟩, by decide, by decide, by decide⟩
        (.cons ⟨d0, d0, ⟨0, d0, by decide +kernel⟩, by decide, by decide, by decide⟩ .nil), by decide, by decide, by decide⟩, by decide +kernel⟩ .nil)
  have hs : GridSpec.InMap (2 : Nat) (1 : Nat) ⌊(0 : ℚ) / (1 / 2)⌋ ⌊(0 : ℚ) / (1 / 2)⌋ := by rw [f0]; unfold GridSpec.InMap; decide
  have he : GridSpec.InMap (2 : Nat) (1 : Nat) ⌊(1 / 2 : ℚ) / (1 / 2)⌋ ⌊(0 : ℚ) / (1 / 2)⌋ := by rw [f0, f1]; unfold GridSpec.InMap; decide
  have fit : PrimsFit (exVs.map Prod.snd) := by unfold PrimsFit; decide
  have hcell : ∀ x y : Nat, x < 2 → y < 1 → IsInt ['3'] (((fun _ _ => 3 : Int → Int → Nat) x y : Nat) : Int) ∧ (fun _ _ => 3 : Int → Int → Nat) x y < 256 :=
    fun _ _ _ _ => ⟨i3, (by decide : (3 : Nat) < 256)⟩
  have ev : Even 2 (exVs.map (fun v => v.2.startTheta)) := ⟨1, by decide, by decide⟩
  obtain ⟨stx, hx⟩ := (files_accepted_iff (foot := pointFoot) (poly := false) (T := 2) (val := fun _ _ => 3) (ps := exPs) (vs := exVs) L N hs he hcell (by decide) (by decide) (by decide) (by decide)
    Lp half_dec (by norm_num) i2 i2 (by decide) hp (by rw [c0]; decide) (by rw [c0]; decide)).mpr ev
  obtain ⟨s, h1, h2, -⟩ := files_to_lattice_plan (foot := pointFoot) (poly := false) (T := 2) (val := fun _ _ => 3) (ps := exPs) (vs := exVs) L N hs he hcell (by decide) (by decide) (by decide)
    (by decide) Lp half_dec (by norm_num) i2 i2 (by decide) hp fit (by rw [c0]; decide) (by rw [c0]; decide) hx
  rw [f0, f1, c0] at h1
  obtain ⟨rest', q, _⟩ := prim_file_read (T := 2) (cs := 1 / 2) Lp half_dec (by norm_num) i2 (by decide) i2 (by decide) hp
  refine ⟨⟨rest', q⟩, stx, s, hx, h2, h1, fit, ?_⟩
  intro v hv
  simp only [exVs, List.mem_cons, List.not_mem_nil, or_false] at hv
  rcases hv with rfl | rfl
  · exact ⟨⟨⟨0, rfl⟩, ⟨0, by norm_num⟩⟩, by decide⟩
  · exact ⟨⟨⟨3, rfl⟩, ⟨0, by norm_num⟩⟩, by decide⟩

end Sbpl.XFileProps
