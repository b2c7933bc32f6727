import Mathlib.Data.List.Basic

/-!
How the game reads the texture part of a map config, independently of how it is written: line by line; `texture c` starts the
next texture slot, `texture` with another letter adds an image to the slot started last, `texcolor` gives it a colour. All
other lines (comments, shaders and their parameters, game variables) leave the slots alone.
-/

namespace Verif.Spec

/-- A texture slot: its main image, its further images by letter, and the words of its colour. -/
structure Slot where
  image : List Char
  more : List (Char × List Char) := []
  colour : List (List Char) := []
  deriving DecidableEq

/-- The lines of a text. -/
def linesOf : List Char → List (List Char)
  | [] => [[]]
  | c :: cs =>
    if c = '\n' then [] :: linesOf cs
    else
      match linesOf cs with
      | [] => [[c]]
      | l :: ls => (c :: l) :: ls

/-- The words of a line, separated by single spaces. -/
def wordsOf : List Char → List (List Char)
  | [] => [[]]
  | c :: cs =>
    if c = ' ' then [] :: wordsOf cs
    else
      match wordsOf cs with
      | [] => [[c]]
      | l :: ls => (c :: l) :: ls

/-- Change the slot started last. -/
def onLast (f : Slot → Slot) : List Slot → List Slot
  | [] => []
  | [s] => [f s]
  | s :: r => s :: onLast f r

/-- The effect of one line. -/
def readLine (slots : List Slot) : List Char → List Slot
  | 't' :: 'e' :: 'x' :: 't' :: 'u' :: 'r' :: 'e' :: ' ' :: c :: ' ' :: '"' :: rest =>
    let image := rest.takeWhile fun x => x != '"'
    if c = 'c' then slots ++ [{ image := image }] else onLast (fun s => { s with more := s.more ++ [(c, image)] }) slots
  | 't' :: 'e' :: 'x' :: 'c' :: 'o' :: 'l' :: 'o' :: 'r' :: ' ' :: rest => onLast (fun s => { s with colour := wordsOf rest }) slots
  | _ => slots

/-- The slots a config defines; the position in the list is the texture number. -/
def readConf (text : List Char) : List Slot := (linesOf text).foldl readLine []

end Verif.Spec
