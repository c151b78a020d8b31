import Verif.Model.Stream
import Mathlib.Algebra.Order.Field.Basic
import Mathlib.Data.Rat.Cast.Order

/-!
# Specification of the file formats of the examples

The published formats, without reference to the readers.
-/

namespace Pico.Spec

open Pico

/-- The number `v` in `w` bytes, most significant byte first. -/
def bigEndian (w v : Nat) : List Byte :=
  List.ofFn fun i : Fin w => UInt8.ofNat (v / 256 ^ (w - 1 - i.val) % 256)

/-- The number that bytes represent, most significant byte first. -/
def bigEndianValue : List Byte → Nat
  | [] => 0
  | b :: l => b.toNat * 256 ^ l.length + bigEndianValue l

/-- The number that bytes represent in two's complement, most significant byte first. -/
def bigEndianSigned (bs : List Byte) : Int :=
  if 2 * bigEndianValue bs < 256 ^ bs.length then bigEndianValue bs else bigEndianValue bs - 256 ^ bs.length

/-- The name ends with `ext`, each letter being in lower or in upper case. -/
def EndsWith (ext name : List Char) : Prop :=
  ∃ stem tail, name = stem ++ tail ∧ List.Forall₂ (fun c l => c = l ∨ c = l.toUpper) tail ext

/-- A file of the MNIST images format: magic number, number of images, rows, columns, pixels. -/
def mnistImages (rows cols : Nat) (images : List (List Byte)) : List Byte :=
  bigEndian 4 2051 ++ bigEndian 4 images.length ++ bigEndian 4 rows ++ bigEndian 4 cols ++ images.flatten

/-- A file of the MNIST labels format. -/
def mnistLabels (labels : List Byte) : List Byte :=
  bigEndian 4 2049 ++ bigEndian 4 labels.length ++ labels

/-- A file of the formats bvecs, fvecs, ivecs: each vector is preceded by its dimension. -/
def xvecs {τ : Type} (int : Int → List Byte) (elem : τ → List Byte) (rows : List (List τ)) : List Byte :=
  rows.flatMap fun r => int r.length ++ r.flatMap elem

/-- White space. -/
def blank (c : Char) : Prop := c ∈ [' ', '\t', '\n', '\r', '\x0b', '\x0c']

/-- A non-empty word without white space. -/
def Word (w : List Char) : Prop := w ≠ [] ∧ ∀ c ∈ w, ¬ blank c

/-- White space that separates words. -/
def Gap (g : List Char) : Prop := g ≠ [] ∧ ∀ c ∈ g, blank c

/-- The digits of the name of a scan, `scanNNN.3d`. -/
def scanDigits : List Char → Option (List Char)
  | ['s', 'c', 'a', 'n', a, b, c, '.', '3', 'd'] =>
    if a.isDigit ∧ b.isDigit ∧ c.isDigit then some [a, b, c] else none
  | _ => none

/-- The name of the pose that belongs to a scan, `scanNNN.pose`. -/
def poseName (digits : List Char) : List Char := ['s', 'c', 'a', 'n'] ++ digits ++ ['.', 'p', 'o', 's', 'e']

/-- A text begins with numbers separated by white space; `IsNumber w v` says that the word `w` stands for `v`.  The
last argument is what follows the numbers. -/
inductive Numbers {α : Type} (IsNumber : List Char → α → Prop) : List α → List Char → List Char → Prop
  | nil (rest) : Numbers IsNumber [] rest rest
  | cons {v : α} {vs : List α} {g w text rest : List Char} (hg : ∀ c ∈ g, blank c) (hw : Word w) (hv : IsNumber w v)
      (hs : ∀ c, text.head? = some c → blank c) (h : Numbers IsNumber vs text rest) :
      Numbers IsNumber (v :: vs) (g ++ (w ++ text)) rest

/-- `d` is `x` rounded to `n + 1` significant decimal digits. -/
def RoundedDecimal (n : Nat) (x d : ℚ) : Prop :=
  ∃ e m : ℤ, d = m * 10 ^ (e - n) ∧ (x = 0 ∧ d = 0 ∨ 10 ^ e ≤ |x| ∧ |x| < 10 ^ (e + 1)) ∧
    ∀ m' : ℤ, |d - x| ≤ |m' * 10 ^ (e - n) - x|

end Pico.Spec
