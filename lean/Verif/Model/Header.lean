import Verif.Model.Stream

/-!
# The Python file format (src/pyco_tree/pico_tree/_pyco_tree/kd_tree.hpp, core.hpp)
-/

namespace Pico

/-- `metric_t` (_pyco_tree/kd_tree.hpp:17). -/
inductive PyMetric where
  | l1
  | l2Squared
  | lpinf
  deriving DecidableEq, Repr

/-- The characters of an ASCII string as bytes. -/
def asciiBytes (s : String) : List Byte := s.toList.map fun c => UInt8.ofNat c.toNat

/-- `string_traits<metric>::type_string` (_pyco_tree/core.hpp:24-37), `metric_string`
(_pyco_tree/kd_tree.hpp:317-319). -/
def metricString : PyMetric → List Byte
  | .l1 => asciiBytes "L1"
  | .l2Squared => asciiBytes "L2Squared"
  | .lpinf => asciiBytes "LPInf"

/-- `metric_from_string` (_pyco_tree/kd_tree.hpp:588-599); `none` is the exception. -/
def metricFromString (s : List Byte) : Option PyMetric :=
  if s = metricString .l1 then some .l1
  else if s = metricString .l2Squared then some .l2Squared
  else if s = metricString .lpinf then some .lpinf
  else none

/-- `std::array<char, n>` and `char` (`n = 1`): the bytes themselves. -/
def Codec.raw (n : Nat) : Codec (List Byte) where
  size := n
  align := 1
  enc _ l := l
  dec bs := some bs

/-- `char`. -/
def Codec.char : Codec Byte where
  size := 1
  align := 1
  enc _ b := [b]
  dec bs := bs.head?

/-- `pkd_header::signature` (_pyco_tree/kd_tree.hpp:549-550). -/
def signature : List Byte := 0x89 :: asciiBytes "PKD"

/-- `pkd_header::version` (_pyco_tree/kd_tree.hpp:554). -/
def version : Nat := 1

/-- `stream_.read(&object, n)` (internal/stream_wrapper.hpp:29-34, 61-66) as it behaves on a stream that
may end too early: byte `i` of the object is the next byte of the stream, or keeps its old value. -/
def fill (old : Nat → Byte) (n : Nat) (s : List Byte) : List Byte :=
  (List.range n).map fun i => s.getD i (old i)

/-- `pkd_header::read` (_pyco_tree/kd_tree.hpp:557-577), on a 64-bit little endian platform.  The local
variables `s`, `v` and `size` are not initialised; `junk` is what the memory holds.  The stream state is
not checked.  `values.resize(size)` sets the characters to zero (internal/stream_wrapper.hpp:51-56);
a size that cannot be allocated raises an exception, which the model reaches as well because the string
is then not the name of a metric. -/
def readHeader (junk : Fin 3 → Nat → Byte) (s : List Byte) : Load PyMetric :=
  if fill (junk 0) 4 s ≠ signature then .throws
  else
    let s := s.drop 4
    if leValue (fill (junk 1) 4 s) ≠ version then .throws
    else
      let s := s.drop 4
      let size := leValue (fill (junk 2) 8 s)
      let s := s.drop 8
      match metricFromString (fill (fun _ => 0) size s) with
      | some m => .ok m (s.drop size)
      | none => .throws

/-- `pkd_header::write` (_pyco_tree/kd_tree.hpp:579-585).  None of the types has padding. -/
def writeHeader (pad : Nat → Byte) (str : List Byte) (out : List Byte) : List Byte :=
  writeVector pad (.unsigned 8) .char str
    (writeValue pad (.unsigned 4) version (writeValue pad (.raw 4) signature out))

section
variable {α : Type}

/-- `save_kd_tree` (_pyco_tree/kd_tree.hpp:608-614).  All Python metrics have the Euclidean tag. -/
def pySave {d : Nat} (pad : Nat → Byte) (P : Platform α) (m : PyMetric)
    (t : TreeData α d (Branch1 α d)) (out : List Byte) : List Byte :=
  saveData pad P (P.branch1 d) t (writeHeader pad (metricString m) out)

/-- `load_kd_tree` (_pyco_tree/kd_tree.hpp:602-606): the header selects the metric, the inner stride of
the array selects a compile time dimension of 2 or 3 or the run time dimension
(make_kd_tree_from_dim, 406-424). -/
def pyLoad (junk : Fin 3 → Nat → Byte) (P : Platform α) (innerStride fuel : Nat) (s : List Byte) :
    Load (PyMetric × Σ d, TreeData α d (Branch1 α d)) :=
  (readHeader junk s).bind fun m s =>
    if innerStride = 2 then
      (loadStatic P (P.branch1 2) 2 fuel s).bind fun t s => .ok (m, ⟨2, t⟩) s
    else if innerStride = 3 then
      (loadStatic P (P.branch1 3) 3 fuel s).bind fun t s => .ok (m, ⟨3, t⟩) s
    else (loadDynamic P P.branch1 fuel s).bind fun t s => .ok (m, t) s

end

end Pico
