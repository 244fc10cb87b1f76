import Mathlib.Data.Rat.Floor
import Verif.Model.Utils
/-!
# Reading text files with `fscanf`, `atoi` and `atof` (C standard library), as used by ReadConfiguration and ReadMotionPrimitives

A file is a list of characters; a reader consumes a prefix of it.  `double` and `float` are exact rational numbers.
Not modelled (`FileErr.other`): the words "inf", "nan" and hexadecimal numbers in `atof` and `%f`.
-/

namespace Sbpl

/-- `thrown`: an `SBPL_Exception`; `ub`: undefined behaviour (buffer overflow of `%s`, a number outside the range of `int`, a variable that was never set);
`other`: not modelled -/
inductive FileErr where
  | thrown | ub | other
deriving DecidableEq, Repr

namespace Scan

abbrev Text := List Char

/-- a reader of text files -/
def Rd (α : Type) := Text → Except FileErr (α × Text)

namespace Rd
def bind' {α β : Type} (m : Rd α) (f : α → Rd β) : Rd β := fun t =>
  match m t with
  | .error e => .error e
  | .ok (a, t') => f a t'
end Rd

instance : Monad Rd where
  pure a := fun t => .ok (a, t)
  bind := Rd.bind'

/-- raise an error -/
def fail {α : Type} (e : FileErr) : Rd α := fun _ => .error e

/-- `isspace` in the C locale -/
def isSpace (c : Char) : Bool := c.toNat == 32 || (9 ≤ c.toNat && c.toNat ≤ 13)

/-- `fscanf("%s")` into a buffer of `size` bytes; `none` is the result EOF, at which the buffer is not changed -/
def word (size : Nat) : Rd (Option (List Char)) := fun t =>
  let t1 := t.dropWhile isSpace
  if t1.isEmpty then .ok (none, [])
  else
    let w := t1.takeWhile (fun c => !isSpace c)
    if w.length ≥ size then .error .ub else .ok (some w, t1.dropWhile (fun c => !isSpace c))

def isDigit (c : Char) : Bool := 48 ≤ c.toNat && c.toNat ≤ 57

/-- value of a list of decimal digits -/
def natOf (ds : List Char) : Nat := ds.foldl (fun n c => 10 * n + (c.toNat - 48)) 0

/-- an optional sign -/
def optSign : Text → Bool × Text
  | '-' :: t => (true, t)
  | '+' :: t => (false, t)
  | t => (false, t)

/-- the number at the beginning of a text, if there is one, and the rest -/
def intPrefix (t : Text) : Option (Int × Text) :=
  let s := optSign t
  let ds := s.2.takeWhile isDigit
  if ds.isEmpty then none
  else some (if s.1 then -(natOf ds : Int) else natOf ds, s.2.dropWhile isDigit)

/-- a number must be in the range of `int` -/
def inInt (v : Int) : Rd Int := if -2147483648 ≤ v ∧ v ≤ 2147483647 then pure v else fail .ub

/-- `atoi`: 0 if the word does not begin with a number.  (Words do not contain whitespace.) -/
def atoi (w : List Char) : Rd Int :=
  match intPrefix w with
  | none => pure 0
  | some (v, _) => inInt v

/-- outcome of a conversion by `fscanf`: EOF (-1), no match (0), one item (1) -/
inductive Conv (α : Type) where
  | eof
  | nomatch
  | one (a : α)
deriving DecidableEq, Repr

/-- `fscanf("%d")`.  (After a failed match the position does not matter: the callers give up.  A sign followed by the end of the
file counts as no match.) -/
def scanD : Rd (Conv Int) := fun t =>
  let t1 := t.dropWhile isSpace
  if t1.isEmpty then .ok (.eof, [])
  else
    match intPrefix t1 with
    | none => .ok (.nomatch, t1)
    | some (v, r) => (do let v ← inInt v; pure (.one v) : Rd (Conv Int)) r

/-- an exponent, if there is one -/
def expPrefix : Text → Int × Text
  | c :: t =>
    if c = 'e' ∨ c = 'E' then
      match intPrefix t with
      | none => (0, c :: t)
      | some (e, r) => (e, r)
    else (0, c :: t)
  | [] => (0, [])

/-- the fractional part: the digits after a point, if there is one -/
def fracPrefix : Text → Text × Text
  | '.' :: t => (t.takeWhile isDigit, t.dropWhile isDigit)
  | t => ([], t)

/-- words for which `strtod` does something else -/
def special : Text → Bool
  | c :: l => c = 'i' || c = 'I' || c = 'n' || c = 'N' || (c = '0' && (l.head? = some 'x' || l.head? = some 'X'))
  | [] => false

/-- the decimal number at the beginning of a text, if there is one, and the rest -/
def decPrefix (t : Text) : Option (ℚ × Text) :=
  let s := optSign t
  let d1 := s.2.takeWhile isDigit
  let f := fracPrefix (s.2.dropWhile isDigit)
  if d1.isEmpty && f.1.isEmpty then none
  else
    let e := expPrefix f.2
    let m : ℚ := (natOf (d1 ++ f.1) : ℚ) / 10 ^ f.1.length * 10 ^ e.1
    some (if s.1 then -m else m, e.2)

/-- `atof`: 0 if the word does not begin with a number -/
def atof (w : List Char) : Rd ℚ :=
  if special (optSign w).2 then fail .other
  else
    match decPrefix w with
    | none => pure 0
    | some (v, _) => pure v

/-- `fscanf("%f")` -/
def scanF : Rd (Conv ℚ) := fun t =>
  let t1 := t.dropWhile isSpace
  if t1.isEmpty then .ok (.eof, [])
  else if special (optSign t1).2 then .error .other
  else
    match decPrefix t1 with
    | none => .ok (.nomatch, t1)
    | some (v, r) => .ok (.one v, r)

/-- conversion of an `int` to `unsigned char` -/
def toUchar (v : Int) : Nat := (v % 256).toNat

/-- conversion of a `double` to `int`: towards zero, undefined if the result is out of range -/
def toInt (q : ℚ) : Rd Int := inInt (Utils.trunc q)

/-- the cells of a map in the order of the file: `for y ... for x ...` -/
def coords (W H : Nat) : List (Nat × Nat) := (List.range H).flatMap fun y => (List.range W).map fun x => (x, y)

/-- reading the cells of the map (environment_nav2D.cpp:231-237, environment_navxythetalat.cpp:446-454) -/
def readCells : List (Nat × Nat) → (Int → Int → Nat) → Rd (Int → Int → Nat)
  | [], g => pure g
  | (x, y) :: l, g => do
    match ← scanD with
    | .one v => readCells l (fun a b => if a = x ∧ b = y then toUchar v else g a b)
    | _ => fail .thrown

end Scan
end Sbpl
