import Verif.Model.Tokenize
/-
Model of how contacts are written by `make_solo_mosaic` and read by `read_mosaic_contact`.

Source: /repo/src/make-solo-mosaic/make_solo_mosaic.c 327-337 (writing), /repo/lib/libfrencutils/read_mosaic.c
`transfer_to_model_index` 657-686, `read_mosaic_contact` 689-774.

Simplifications: `sprintf("%d")` and `atoi` are decimal notation of unbounded integers. A row of the file has 255
characters, filled with zeros; strings are stored as they are if they are shorter, longer ones are an error here.
-/
namespace Verif.MosaicContact
open Verif.Tokenize

/-- `STRING` -/
def stringLen : Nat := 255

def digit (n : Nat) : Char := Char.ofNat (48 + n)

/-- `%d` for a number that is not negative. -/
def dec (n : Nat) : List Char := if h : n < 10 then [digit n] else dec (n / 10) ++ [digit (n % 10)]
termination_by n
decreasing_by omega

/-- `%d` -/
def printInt : Int → List Char
  | .ofNat n => dec n
  | .negSucc n => '-' :: dec (n + 1)

/-- `atoi` of a string of digits. -/
def atoi (s : List Char) : Int := s.foldl (fun (a : Int) c => 10 * a + ((c.toNat : Int) - 48)) 0

/-- The eight numbers of a contact. -/
structure Ix where
  is1 : Int
  ie1 : Int
  js1 : Int
  je1 : Int
  is2 : Int
  ie2 : Int
  js2 : Int
  je2 : Int
deriving DecidableEq, Repr

/-- `sprintf(str,"%s:%s::%s:%s", ...)` 328 -/
def contactString (mosaic tile1 tile2 : List Char) : List Char :=
  mosaic ++ ':' :: (tile1 ++ ':' :: ':' :: (mosaic ++ ':' :: tile2))

/-- `sprintf(str,"%d:%d,%d:%d::%d:%d,%d:%d", ...)` 332 -/
def indexString (x : Ix) : List Char :=
  printInt x.is1 ++ ':' :: (printInt x.ie1 ++ ',' :: (printInt x.js1 ++ ':' :: (printInt x.je1 ++ ':' :: ':' ::
    (printInt x.is2 ++ ':' :: (printInt x.ie2 ++ ',' :: (printInt x.js2 ++ ':' :: printInt x.je2))))))

/-- A row of the file, written and read. -/
def row (s : List Char) : Option (List Char) := if s.length < stringLen then some s else none

inductive ReadErr
  | token (e : TokErr)
  | fields | tile1 | tile2 | indexFields | digits | refine | point | kind
deriving DecidableEq, Repr

/-- `transfer_to_model_index`: type, start and end. -/
def transfer (s e : Int) : Except ReadErr (Nat × Int × Int) :=
  if s = e then .ok (0, (s + 1).tdiv 2 - 1, (s + 1).tdiv 2 - 1)
  else
    let p := if e > s then (s - 1, e - 2) else (s - 2, e - 1)
    if p.1.tmod 2 ≠ 0 ∨ p.2.tmod 2 ≠ 0 then .error .refine
    else .ok (1, p.1.tdiv 2, p.2.tdiv 2)

/-- A contact as the callers of `read_mosaic_contact` get it. -/
structure Contact where
  tile1 : Nat
  tile2 : Nat
  ix : Ix
deriving DecidableEq, Repr

def tok (e : Except TokErr (List (List Char))) : Except ReadErr (List (List Char)) :=
  match e with
  | .ok r => .ok r
  | .error e => .error (.token e)

/-- The loop body of `read_mosaic_contact` for one contact. -/
def readContact (gridtiles : List (List Char)) (contacts index : List Char) : Except ReadErr Contact := do
  let f ← tok (tokenize contacts [':'] stringLen 40)
  match f with
  | [_, n1, _, n2] =>
    match gridtiles.findIdx? (· = n1), gridtiles.findIdx? (· = n2) with
    | none, _ => .error .tile1
    | some _, none => .error .tile2
    | some t1, some t2 =>
      let g ← tok (tokenize index [':', ','] stringLen 40)
      match g with
      | [a, b, c, d, e, f, g, h] =>
        if [a, b, c, d, e, f, g, h].any (fun w => w.any fun ch => ch.toNat > 57 || ch.toNat < 48) then .error .digits
        else
          let (i1, is1, ie1) ← transfer (atoi a) (atoi b)
          let (j1, js1, je1) ← transfer (atoi c) (atoi d)
          let (i2, is2, ie2) ← transfer (atoi e) (atoi f)
          let (j2, js2, je2) ← transfer (atoi g) (atoi h)
          if i1 = 0 ∧ j1 = 0 then .error .point
          else if i2 = 0 ∧ j2 = 0 then .error .point
          else if i1 + j1 ≠ i2 + j2 then .error .kind
          else .ok ⟨t1 + 1, t2 + 1, ⟨is1, ie1, js1, je1, is2, ie2, js2, je2⟩⟩
      | _ => .error .indexFields
  | _ => .error .fields

end Verif.MosaicContact
