import Verif.Model.Header
import Mathlib.Data.Fin.VecNotation

/-!
# File formats of the examples (examples/pico_toolshed/pico_toolshed/format)

File names are relative to `examples/pico_toolshed/pico_toolshed/format/`.  A file is the list of its bytes, a
file that does not exist is `none`.  Files that exist can be opened, and nobody else writes to them.
-/

namespace Pico

/-- Outcome of reading a file: the value, an exception, or undefined behaviour. -/
inductive FileRead (τ : Type) where
  | ok (v : τ)
  | throws
  | ub
  deriving DecidableEq

/-! ## Byte order -/

/-- `swap_endian` (endian.hpp:8-19) on the object representation. -/
def swapEndian (bs : List Byte) : List Byte :=
  (List.range bs.length).map fun i => bs.getD (bs.length - i - 1) 0

/-- `big_endian_to_native` (endian.hpp:21-35) for an integral type of `w` bytes.  The argument is the object
representation of `v`, the result a value (bits of the two's complement representation).  `std::size_t` has 64
bits. -/
def bigEndianToNative (w : Nat) (bs : List Byte) : BitVec (8 * w) :=
  (List.range w).foldl (fun native i =>
    native ||| ((BitVec.ofNat 64 (bs.getD i 0).toNat <<< ((w - 1 - i) * 8)).setWidth (8 * w))) 0

/-! ## Plain binary files -/

section Bin
variable {τ : Type}

/-- `write_bin` (format_bin.hpp:8-18): the file afterwards.  Opening with `std::ios::out` creates or empties
it. -/
def writeBin (pad : Nat → Byte) (c : Codec τ) (v : List τ) (file : Option (List Byte)) :
    Option (List Byte) :=
  if v.isEmpty then file else some (writeArray pad c v [])

/-- `read_bin` (format_bin.hpp:20-32). -/
def readBin (c : Codec τ) (file : Option (List Byte)) : Load (List τ) :=
  match file with
  | none => .throws
  | some bytes => readArray c (bytes.length / c.size) bytes

end Bin

/-! ## MNIST -/

/-- `int` with 32 bits: a multiplication that overflows is undefined (format_mnist.hpp:53). -/
def mulInt32 (a b : Int) : Option Int :=
  if -2 ^ 31 ≤ a * b ∧ a * b < 2 ^ 31 then some (a * b) else none

/-- `resize(static_cast<std::size_t>(count))` (format_mnist.hpp:57, 78): a negative
count becomes a number above `max_size()` and `std::length_error` is thrown.  Running out of memory is not
modelled. -/
def resizeCount (count : Int) : Option Nat := if count < 0 then none else some count.toNat

/-- `resize` followed by `wrapper.read(size, data)` (format_mnist.hpp:57-58, 78-79): new elements are zero, and
stay zero if the file is too short, which is not checked. -/
def readBlocks (size count : Nat) (s : List Byte) : List (List Byte) :=
  (List.range count).map fun i => (List.range size).map fun j => s.getD (size * i + j) 0

/-- `read_mnist_images` (format_mnist.hpp:33-59).  `magic_number` and `header` are not initialised; `junk` is what
their memory holds. -/
def readMnistImages (junk : Fin 2 → Nat → Byte) (file : Option (List Byte)) :
    FileRead (List (List Byte)) :=
  match file with
  | none => .throws
  | some s =>
    if (bigEndianToNative 4 (fill (junk 0) 4 s)).toInt ≠ 2051 then .throws
    else
      let header := fill (junk 1) 12 (s.drop 4)
      let count := (bigEndianToNative 4 (header.take 4)).toInt
      let width := (bigEndianToNative 4 ((header.drop 4).take 4)).toInt
      let height := (bigEndianToNative 4 (header.drop 8)).toInt
      match mulInt32 width height with
      | none => .ub
      | some area =>
        if area ≠ 28 * 28 then .throws
        else match resizeCount count with
          | none => .throws
          | some n => .ok (readBlocks (28 * 28) n (s.drop 16))

/-- `read_mnist_labels` (format_mnist.hpp:61-80). -/
def readMnistLabels (junk : Fin 2 → Nat → Byte) (file : Option (List Byte)) : FileRead (List Byte) :=
  match file with
  | none => .throws
  | some s =>
    if (bigEndianToNative 4 (fill (junk 0) 4 s)).toInt ≠ 2049 then .throws
    else
      match resizeCount (bigEndianToNative 4 (fill (junk 1) 4 (s.drop 4))).toInt with
      | none => .throws
      | some n => .ok ((readBlocks 1 n (s.drop 8)).flatten)

/-! ## Vectors of the TEXMEX corpus -/

/-- The element types of `format_string` (format_xvecs.hpp:14-29). -/
inductive VecsType where
  | byte
  | float
  | int
  deriving DecidableEq

/-- `format_string` (format_xvecs.hpp:14-29). -/
def VecsType.format : VecsType → List Char
  | .byte => ['b', 'v', 'e', 'c', 's']
  | .float => ['f', 'v', 'e', 'c', 's']
  | .int => ['i', 'v', 'e', 'c', 's']

/-- `std::tolower` in the classic locale (format_xvecs.hpp:31-36). -/
def lowerChar (c : Char) : Char := if 'A' ≤ c ∧ c ≤ 'Z' then Char.ofNat (c.toNat + 32) else c

/-- `filename_lower.compare(filename_lower.size() - format_string.size(), format_string.size(), format_string)`
(format_xvecs.hpp:46-51): `size_t` arithmetic; a position behind the end throws `std::out_of_range`, another end
of the name throws `std::runtime_error`. -/
def vecsNameOk (t : VecsType) (filename : List Char) : Bool :=
  let lower := filename.map lowerChar
  let pos := (lower.length + 2 ^ 64 - t.format.length) % 2 ^ 64
  if lower.length < pos then false
  else (lower.drop pos).take t.format.length == t.format

/-- The loop of `read_xvecs` (format_xvecs.hpp:62-66): `coords` is read and not used. -/
def readRows {τ : Type} (int : Codec Int) (c : Codec τ) (N : Nat) : Nat → List Byte → Load (List (List τ))
  | 0, s => .ok [] s
  | n + 1, s =>
    (readValue int s).bind fun _ s =>
      (readArray c N s).bind fun r s => (readRows int c N n s).bind fun l s => .ok (r :: l) s

/-- `read_xvecs` (format_xvecs.hpp:40-67). -/
def readXvecs {τ : Type} (t : VecsType) (int : Codec Int) (c : Codec τ) (N : Nat) (filename : List Char)
    (file : Option (List Byte)) : Load (List (List τ)) :=
  if vecsNameOk t filename then
    match file with
    | none => .throws
    | some bytes => readRows int c N (bytes.length / (int.size + c.size * N)) bytes
  else .throws

/-! ## Scans of the Universities of Osnabrück and Bremen -/

section Uosr
variable {α : Type} [Zero α] [Add α] [Sub α] [Neg α] [Mul α]

/-- `isometry` (format_uosr.hpp:24-64): the members `R_` (column major) and `t_`. -/
structure Isometry (α : Type) where
  R : Fin 9 → α
  t : Fin 3 → α

/-- `isometry::from_euler` (format_uosr.hpp:29-50) given the sines and cosines of the angles. -/
def Isometry.fromEuler (sx cx sy cy sz cz : α) (t : Fin 3 → α) : Isometry α where
  R := ![cy * cz,
    sx * sy * cz + cx * sz,
    -cx * sy * cz + sx * sz,
    -cy * sz,
    -sx * sy * sz + cx * cz,
    cx * sy * sz + sx * cz,
    sy,
    -sx * cy,
    cx * cy]
  t := t

/-- `isometry::transform` (format_uosr.hpp:52-59). -/
def Isometry.transform (T : Isometry α) (p : Pt α 3) : Pt α 3 :=
  let rx := p 0 * T.R 0 + p 1 * T.R 3 + p 2 * T.R 6
  let ry := p 0 * T.R 1 + p 1 * T.R 4 + p 2 * T.R 7
  let rz := p 0 * T.R 2 + p 1 * T.R 5 + p 2 * T.R 8
  ![rx + T.t 0, ry + T.t 1, rz + T.t 2]

/-- White space of the classic locale. -/
def isBlank (c : Char) : Bool := c = ' ' || c = '\t' || c = '\n' || c = '\r' || c = '\x0b' || c = '\x0c'

/-- `ss >> value` (format_uosr.hpp:83, 85, 87) for a `std::string`: skips white space and takes the characters up to
the next white space.  If none are left `value` keeps its contents ([string.io]: the string is erased only if the
sentry succeeds).  Gives the new contents and the remaining characters. -/
def nextToken (value ss : List Char) : List Char × List Char :=
  let s := ss.dropWhile isBlank
  if s.isEmpty then (value, []) else (s.takeWhile fun c => !isBlank c, s.dropWhile fun c => !isBlank c)

/-- `uosr_scan_reader::read_next` (format_uosr.hpp:73-96) after `getline`; `strtod` is `std::strtod`. -/
def readScanLine (strtod : List Char → α) (pose : Isometry α) (line : List Char) : Pt α 3 :=
  let v0 := nextToken [] line
  let v1 := nextToken v0.1 v0.2
  let v2 := nextToken v1.1 v1.2
  pose.transform ![strtod v0.1, strtod v1.1, strtod v2.1]

/-- The results of `std::getline` until it fails (format_uosr.hpp:76-78, 148): the lines of a text; what follows the
last `\n` is a line if it is not empty. -/
def textLines : List Char → List (List Char)
  | [] => []
  | c :: l =>
    if c = '\n' then [] :: textLines l
    else match textLines l with
      | [] => [[c]]
      | x :: r =>
        (c :: x) :: r

/-- The loop over the scans of `read_uosr` (format_uosr.hpp:143-151): `paths` are pose and text of the files in the
order of the directory; the points are appended. -/
def readUosr {γ : Type} (strtod : List Char → α) (cast : α → γ) (scans : List (Isometry α × List Char))
    (points : List (Pt γ 3)) : List (Pt γ 3) :=
  scans.foldl (fun points s =>
    (textLines s.2).foldl (fun points line =>
      points ++ [fun i => cast (readScanLine strtod s.1 line i)]) points) points

end Uosr

end Pico
