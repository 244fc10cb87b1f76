import Mathlib.Data.Rat.Defs
import Mathlib.Data.Rat.Floor
/-!
# Specification vocabulary for text files: words, numbers, map files, files of motion primitives
-/

namespace Sbpl.FileSpec

abbrev Word := List Char

/-- white space: space, tab, line feed, vertical tab, form feed, carriage return -/
def Blank (c : Char) : Prop := c.toNat = 32 ∨ (9 ≤ c.toNat ∧ c.toNat ≤ 13)

/-- the text consists of the given words, separated by white space (of any kind and amount) -/
inductive Layout : List Word → List Char → Prop
  | done {s : List Char} : (∀ c ∈ s, Blank c) → Layout [] s
  | more {s t : List Char} {w : Word} {ws : List Word} : (∀ c ∈ s, Blank c) → w ≠ [] → (∀ c ∈ w, ¬ Blank c) →
      (∀ c, t.head? = some c → Blank c) → Layout ws t → Layout (w :: ws) (s ++ w ++ t)

/-- only decimal digits -/
def Digits (w : Word) : Prop := ∀ c ∈ w, 48 ≤ c.toNat ∧ c.toNat ≤ 57

/-- the number denoted by decimal digits (positional notation; 48 is the code of the digit 0) -/
def decVal : Word → Nat
  | [] => 0
  | c :: l => (c.toNat - 48) * 10 ^ l.length + decVal l

/-- the word denotes the integer: decimal digits with an optional sign -/
inductive IsInt : Word → Int → Prop
  | plain {w : Word} : w ≠ [] → Digits w → IsInt w (decVal w)
  | plus {w : Word} : w ≠ [] → Digits w → IsInt ('+' :: w) (decVal w)
  | minus {w : Word} : w ≠ [] → Digits w → IsInt ('-' :: w) (-(decVal w : Int))

/-- the word denotes the number: decimal digits with an optional decimal point -/
inductive IsUDec : Word → ℚ → Prop
  | whole {w : Word} : w ≠ [] → Digits w → IsUDec w (decVal w)
  | point {w f : Word} : w ≠ [] ∨ f ≠ [] → Digits w → Digits f → IsUDec (w ++ '.' :: f) (decVal w + decVal f / 10 ^ f.length)

/-- the same with an optional sign -/
inductive IsDec : Word → ℚ → Prop
  | plain {w : Word} {q : ℚ} : IsUDec w q → IsDec w q
  | plus {w : Word} {q : ℚ} : IsUDec w q → IsDec ('+' :: w) q
  | minus {w : Word} {q : ℚ} : IsUDec w q → IsDec ('-' :: w) (-q)

/-- the word does not begin like an integer -/
def NotInt (w : Word) : Prop := ∀ c, w.head? = some c → c ≠ '+' ∧ c ≠ '-' ∧ ¬ (48 ≤ c.toNat ∧ c.toNat ≤ 57)

/-- an `int` of 32 bits -/
def IntRange (v : Int) : Prop := -2147483648 ≤ v ∧ v ≤ 2147483647

/-- the words of the cells of a map, row by row -/
def rows (W H : Nat) (cell : Nat → Nat → Word) : List Word := (List.range H).flatMap fun y => (List.range W).map fun x => cell x y

end Sbpl.FileSpec

namespace Sbpl.FileSpec

/-- the words of a file describing a 2-D grid: a word (`discretization(cells):`), width, height, `obsthresh:`, the threshold, a word (`start(cells):`), the start cell,
a word (`end(cells):`), the goal cell, a word (`environment:`), the cells of the map row by row -/
def nav2dFile (l1 w h o l2 sx sy l3 ex ey l4 : Word) (cells : List Word) : List Word :=
  [l1, w, h, "obsthresh:".toList, o, l2, sx, sy, l3, ex, ey, l4] ++ cells

/-- the words of a file describing a grid with headings; `th` are the optional words `NumThetaDirs:` and the number of headings -/
def xytFile (w h : Word) (th : List Word) (o i c cs vel tt l1 sx sy st l2 ex ey et l3 : Word) (cells : List Word) : List Word :=
  ["discretization(cells):".toList, w, h] ++ th ++
  ["obsthresh:".toList, o, "cost_inscribed_thresh:".toList, i, "cost_possibly_circumscribed_thresh:".toList, c, "cellsize(meters):".toList, cs,
    "nominalvel(mpersecs):".toList, vel, "timetoturn45degsinplace(secs):".toList, tt, l1, sx, sy, st, l2, ex, ey, et, l3] ++ cells

/-- the words of a primitive in a file of motion primitives: number, heading at the beginning, cell and heading at the end, cost factor, poses -/
def primWords (id st x y th m n : Word) (poses : List (Word × Word × Word)) : List Word :=
  ["primID:".toList, id, "startangle_c:".toList, st, "endpose_c:".toList, x, y, th, "additionalactioncostmult:".toList, m, "intermediateposes:".toList, n] ++
  poses.flatMap (fun p => [p.1, p.2.1, p.2.2])

/-- the words of a file of motion primitives: cell size, number of headings, number of primitives, the primitives -/
def primFile (cs T n : Word) (prims : List Word) : List Word :=
  ["resolution_m:".toList, cs, "numberofangles:".toList, T, "totalnumberofprimitives:".toList, n] ++ prims

end Sbpl.FileSpec
