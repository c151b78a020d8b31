import Verif.Model.Formats

/-!
# Directories of scans and the conversion programs (format_uosr.hpp, format_ascii.hpp, uosr_to_bin.cpp, bin_to_ascii.cpp)

`format_uosr.hpp` and `format_ascii.hpp` are in `examples/pico_toolshed/pico_toolshed/format/`, `point.hpp` is
`examples/pico_toolshed/pico_toolshed/point.hpp`, the programs are in `examples/benchmark/`.  Nobody else changes the
directory while a program runs, and files that exist can be opened.
-/

namespace Pico

/-! ## The pattern of file names -/

/-- What a regular expression of the ECMAScript grammar consists of, as far as the code uses it. -/
inductive RegexItem where
  | lit (c : Char)
  | digit
  | any
  deriving DecidableEq

/-- One character matches one item.  `.` stands for every character but line ends; `\d` for the digits of the classic
locale. -/
def RegexItem.ok : RegexItem → Char → Bool
  | .lit a, c => c = a
  | .digit, c => '0' ≤ c ∧ c ≤ '9'
  | .any, c => c ≠ '\n' ∧ c ≠ '\r'

/-- The constructor of `std::regex` (format_uosr.hpp:132-134) for a pattern between `^` and `$`: `\d`, `.`, the
quantifier `{n}` with one digit behind them, other characters for themselves. -/
def regexItems : Nat → List Char → List RegexItem
  | 0, _ => []
  | fuel + 1, '\\' :: 'd' :: '{' :: n :: '}' :: l =>
    List.replicate (n.toNat - '0'.toNat) .digit ++ regexItems fuel l
  | fuel + 1, '\\' :: 'd' :: l => .digit :: regexItems fuel l
  | fuel + 1, '\\' :: c :: l => .lit c :: regexItems fuel l
  | fuel + 1, '.' :: l => .any :: regexItems fuel l
  | fuel + 1, c :: l => .lit c :: regexItems fuel l
  | _ + 1, [] => []

/-- `std::regex_search` (format_uosr.hpp:138) for a pattern between `^` and `$`: the whole string has to match.  `^`
and `$` stand for the ends of the string only (`std::regex::multiline` is not given). -/
def regexMatch : List RegexItem → List Char → Bool
  | [], [] => true
  | i :: is, c :: s => i.ok c && regexMatch is s
  | _, _ => false

/-- `string_scan` (format_uosr.hpp:18). -/
def stringScan : List Char := ['s', 'c', 'a', 'n']

/-- `string_pose` (format_uosr.hpp:19). -/
def stringPose : List Char := ['.', 'p', 'o', 's', 'e']

/-- `string_3d` (format_uosr.hpp:20). -/
def string3d : List Char := ['.', '3', 'd']

/-- The pattern between `^` and `$` (format_uosr.hpp:132-134). -/
def scanPattern : List Char := stringScan ++ ['\\', 'd', '{', '3', '}'] ++ string3d

/-- The test of a file name (format_uosr.hpp:138). -/
def scanNameOk (name : List Char) : Bool := regexMatch (regexItems scanPattern.length scanPattern) name

/-- `std::filesystem::path::replace_extension` (format_uosr.hpp:70) for a file name and a replacement that begins with
a dot: what follows the last dot is removed, unless the dot is the first character or the name is `..`. -/
def replaceExtension (name ext : List Char) : List Char :=
  let stem := match name.reverse.dropWhile fun c => c ≠ '.' with
    | [] => name
    | [_] => name
    | _ :: s => if name = ['.', '.'] then name else s.reverse
  stem ++ ext

/-! ## Poses -/

section Pose
variable {α : Type} [Zero α] [Add α] [Sub α] [Neg α] [Mul α]

/-- `stream >> value` for a `double` (format_uosr.hpp:102).  The stream is the characters that are left, or `none` when
it has failed; `value` is `none` while it is indeterminate.  White space is skipped; if nothing is left the stream
fails and `value` keeps its contents.  Otherwise `num` (`std::num_get`) gives the value to store and what is left,
`none` if it sets `failbit`. -/
def extractNumber (num : List Char → α × Option (List Char)) (value : Option α) (stream : Option (List Char)) :
    Option α × Option (List Char) :=
  match stream with
  | none => (value, none)
  | some l =>
    let s := l.dropWhile isBlank
    if s.isEmpty then (value, none) else (some (num s).1, (num s).2)

/-- `uosr_scan_reader::read_pose` (format_uosr.hpp:99-109).  `e` and `t` are not initialised (101) and using an
indeterminate value is undefined (104-106, copies in 26 and 49).  `toRad` is the multiplication by `deg_to_rad`
(21). -/
def readPose (num : List Char → α × Option (List Char)) (toRad sin cos : α → α) (file : Option (List Char)) :
    FileRead (Isometry α) :=
  match file with
  | none => .throws
  | some text =>
    let t0 := extractNumber num none (some text)
    let t1 := extractNumber num none t0.2
    let t2 := extractNumber num none t1.2
    let e0 := extractNumber num none t2.2
    let e1 := extractNumber num none e0.2
    let e2 := extractNumber num none e1.2
    match t0.1, t1.1, t2.1, e0.1, e1.1, e2.1 with
    | some x, some y, some z, some a, some b, some c =>
      .ok (Isometry.fromEuler (sin (toRad a)) (cos (toRad a)) (sin (toRad b)) (cos (toRad b)) (sin (toRad c))
        (cos (toRad c)) ![x, y, z])
    | _, _, _, _, _, _ => .ub

/-! ## Directories -/

/-- An entry of a directory: its name, and the text if it is a regular file. -/
structure DirEntry where
  name : List Char
  text : Option (List Char)
  deriving DecidableEq

/-- What the path given to `read_uosr` leads to. -/
inductive Root where
  | missing
  | other
  | dir (entries : List DirEntry)

/-- Outcome of `read_uosr`: the points, an exception, undefined behaviour, or the end of the program with
`EXIT_FAILURE`. -/
inductive ScanRead (τ : Type) where
  | ok (v : τ)
  | throws
  | ub
  | exits
  deriving DecidableEq

/-- `open_stream` on a file of the directory.  Simplified: what is not a regular file cannot be opened. -/
def openEntry (entries : List DirEntry) (name : List Char) : Option (List Char) :=
  (entries.find? fun e => e.name = name).bind DirEntry.text

/-- `paths` (format_uosr.hpp:135-141): names and texts of the scans in the order of the directory. -/
def scanPaths (entries : List DirEntry) : List (List Char × List Char) :=
  entries.filterMap fun e => match e.text with
    | some text => if scanNameOk e.name then some (e.name, text) else none
    | none => none

/-- The loop over the scans (format_uosr.hpp:143-151): the constructor of `uosr_scan_reader` (68-71) reads the pose,
then the points are appended. -/
def readScans {γ : Type} (num : List Char → α × Option (List Char)) (toRad sin cos : α → α)
    (strtod : List Char → α) (cast : α → γ) (entries : List DirEntry) :
    List (List Char × List Char) → List (Pt γ 3) → ScanRead (List (Pt γ 3))
  | [], points => .ok points
  | (name, text) :: paths, points =>
    match readPose num toRad sin cos (openEntry entries (replaceExtension name stringPose)) with
    | .throws => .throws
    | .ub => .ub
    | .ok pose =>
      readScans num toRad sin cos strtod cast entries paths (readUosr strtod cast [(pose, text)] points)

/-- `read_uosr` (format_uosr.hpp:117-152). -/
def readUosrRoot {γ : Type} (num : List Char → α × Option (List Char)) (toRad sin cos : α → α)
    (strtod : List Char → α) (cast : α → γ) (root : Root) (points : List (Pt γ 3)) : ScanRead (List (Pt γ 3)) :=
  match root with
  | .missing => .exits
  | .other => .exits
  | .dir entries => readScans num toRad sin cos strtod cast entries (scanPaths entries) points

end Pose

/-! ## Text output -/

section Ascii
variable {γ : Type}

/-- `operator<<` of a point (point.hpp:76-84); `print` is `operator<<` of a coordinate. -/
def printPoint {d : Nat} (print : γ → List Char) (p : Pt γ (d + 1)) : List Char :=
  (List.finRange d).foldl (fun s i => s ++ [' '] ++ print (p i.succ)) (print (p 0))

/-- `write_ascii` (format_ascii.hpp:8-19): the file afterwards. -/
def writeAscii {d : Nat} (print : γ → List Char) (v : List (Pt γ (d + 1))) (file : Option (List Char)) :
    Option (List Char) :=
  if v.isEmpty then file else some (v.foldl (fun s p => s ++ printPoint print p ++ ['\n']) [])

end Ascii

/-! ## The conversion programs -/

/-- The working directory of the programs: the scans and poses, `scans.bin` and `scans.txt`. -/
structure Folder where
  entries : List DirEntry
  bin : Option (List Byte)
  txt : Option (List Char)

/-- What a program does: it ends with a directory, an uncaught exception or `EXIT_FAILURE` end it, it is undefined. -/
inductive Program where
  | done (f : Folder)
  | fails
  | ub

/-- `main` of `uosr_to_bin` (uosr_to_bin.cpp:5-23), `points` being the result of `read_uosr`. -/
def uosrToBin {γ : Type} (pad : Nat → Byte) (c : Codec (Pt γ 3)) (points : ScanRead (List (Pt γ 3))) (f : Folder) :
    Program :=
  match f.bin with
  | some _ => .done f
  | none => match points with
    | .ok v => .done { f with bin := writeBin pad c v none }
    | .throws => .fails
    | .exits => .fails
    | .ub => .ub

/-- `main` of `bin_to_ascii` (bin_to_ascii.cpp:6-28). -/
def binToAscii {γ : Type} (c : Codec (Pt γ 3)) (print : γ → List Char) (f : Folder) : Program :=
  match f.bin with
  | none => .done f
  | some bytes => match f.txt with
    | some _ => .done f
    | none => match readBin c (some bytes) with
      | .ok v _ => .done { f with txt := writeAscii (d := 2) print v none }
      | .throws => .fails
      | _ => .ub

end Pico
