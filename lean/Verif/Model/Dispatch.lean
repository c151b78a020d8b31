import Mathlib.Data.List.Perm.Basic

/-!
# Which function a call from Python reaches (_pyco_tree/def_kd_tree.cpp)

The bindings give several functions the same name. Which one runs is decided by pybind11: `cpp_function::dispatcher`
fills the parameters of one overload after the other from the positional arguments, the keywords and the defaults
(`collect`), tries them without conversions, and if none fits again with conversions (`resolve`). The overloads and
their parameters are those of def_kd_tree.cpp; the rules are pybind11's and assumed.
-/

namespace Pico.Bind

/-- Names of parameters and keywords. -/
inductive Name
  | pts | k | nns | e | radius | sort | boxes | indices
  | other (n : Nat)
deriving DecidableEq

/-- What Python passes, as far as the casters see a difference. `A`: NumPy arrays, `D`: `DArray`s, `F`: values of
`float` (`numpy.float64` is one). -/
inductive PyVal (A D F : Type)
  | array (a : A) (truth : Option Bool)
  | darray (x : D) (truth : Bool)
  | int (v : Int)
  | float (x : F) (truth : Bool)
  | bool (b : Bool)
  /-- `numpy.bool_` -/
  | npBool (b : Bool)
  | none
  /-- Anything else, for example `numpy.float32` or `numpy.int64`, and what `bool()` makes of it. -/
  | other (truth : Option Bool)

/-- What the functions receive. -/
inductive Arg (A D F : Type)
  | array (a : A)
  | darray (x : D)
  | int (v : Int)
  | float (x : F)
  | bool (b : Bool)

/-- The types of the parameters: `py::array`, `darray&`, `py::int_`, `py::float_`, `bool`. -/
inductive Caster
  | array | darray | int | float | bool
deriving DecidableEq

variable {A D F ρ : Type}

/-- What `bool()` says (`nb_bool`). -/
def PyVal.truth : PyVal A D F → Option Bool
  | .array _ t => t
  | .darray _ t => some t
  | .int v => some (decide (v ≠ 0))
  | .float _ t => some t
  | .bool b => some b
  | .npBool b => some b
  | .none => some false
  | .other t => t

/-- `type_caster::load`. The wrappers of Python types check the type (`PyArray_Check`, `PyLong_Check`, `PyFloat_Check`)
and convert nothing; a Python `bool` is an `int`. The caster of `bool` takes `True`, `False` and `numpy.bool_`, with
conversions everything that has a truth value. -/
def load : Caster → Bool → PyVal A D F → Option (Arg A D F)
  | .array, _, .array a _ => some (.array a)
  | .darray, _, .darray x _ => some (.darray x)
  | .int, _, .int v => some (.int v)
  | .int, _, .bool b => some (.int (if b then 1 else 0))
  | .float, _, .float x _ => some (.float x)
  | .bool, _, .bool b => some (.bool b)
  | .bool, _, .npBool b => some (.bool b)
  | .bool, true, v => v.truth.map .bool
  | _, _, _ => none

/-- A parameter: `py::arg(name)` with `.noconvert()` and a default. All of them are `.none(false)`. -/
structure Param (A D F : Type) where
  name : Name
  caster : Caster
  convert : Bool
  default : Option (PyVal A D F)

/-- An overload: its parameters and the function that is called with the loaded values. -/
structure Overload (A D F ρ : Type) where
  params : List (Param A D F)
  call : List (Arg A D F) → Option ρ

/-- Is it `None`? -/
def PyVal.isNone : PyVal A D F → Bool
  | .none => true
  | _ => false

/-- The values of the parameters (steps 1 to 3 of the dispatcher): positional arguments, then keywords, then defaults.
It fails with too many positional arguments, a parameter given twice, `None`, a missing value or a keyword that is left
over. -/
def collect : List (Param A D F) → List (PyVal A D F) → List (Name × PyVal A D F) → Option (List (PyVal A D F))
  | [], [], kw => if kw.isEmpty then some [] else none
  | [], _ :: _, _ => none
  | p :: ps, v :: pos, kw =>
    if kw.any fun x => decide (x.1 = p.name) then none
    else if v.isNone then none
    else (collect ps pos kw).map (v :: ·)
  | p :: ps, [], kw =>
    match kw.find? fun x => decide (x.1 = p.name) with
    | some x =>
      if x.2.isNone then none
      else (collect ps [] (kw.filter fun y => decide (y.1 ≠ p.name))).map (x.2 :: ·)
    | none =>
      match p.default with
      | some v => (collect ps [] kw).map (v :: ·)
      | none => none

/-- Loads all values or none. -/
def loadAll (pass : Bool) : List (Param A D F) → List (PyVal A D F) → Option (List (Arg A D F))
  | p :: ps, v :: vs =>
    match load p.caster (pass && p.convert) v, loadAll pass ps vs with
    | some a, some as => some (a :: as)
    | _, _ => none
  | _, _ => some []

/-- One attempt: `pass` is `false` in the first pass. -/
def Overload.attempt (o : Overload A D F ρ) (pass : Bool) (pos : List (PyVal A D F)) (kw : List (Name × PyVal A D F)) :
    Option ρ :=
  match collect o.params pos kw with
  | some vs => if pass && !(o.params.any Param.convert) then none else (loadAll pass o.params vs).bind o.call
  | none => none

/-- `cpp_function::dispatcher` for a name with several overloads; `none` is the exception `TypeError`. -/
def resolve (os : List (Overload A D F ρ)) (pos : List (PyVal A D F)) (kw : List (Name × PyVal A D F)) : Option ρ :=
  match os.findSome? fun o => o.attempt false pos kw with
  | some r => some r
  | none => os.findSome? fun o => o.attempt true pos kw

/-- A search with a radius: with a ratio if it is approximate, with an output if one is given. -/
structure RadiusCall (A D F : Type) where
  pts : A
  radius : F
  e : Option F
  nns : Option D
  sort : Bool

/-- `py::arg(name).noconvert().none(false)` -/
def exactly (n : Name) (c : Caster) : Param A D F := ⟨n, c, false, none⟩

/-- `py::arg(name).none(false)` -/
def plain (n : Name) (c : Caster) : Param A D F := ⟨n, c, true, none⟩

/-- `py::arg("sort").none(false) = false` -/
def sortParam : Param A D F := ⟨.sort, .bool, true, some (.bool false)⟩

/-- The overloads of `search_radius`, in order (def_kd_tree.cpp:111-164). -/
def radiusOverloads : List (Overload A D F (RadiusCall A D F)) :=
  [⟨[exactly .pts .array, plain .radius .float, exactly .nns .darray, sortParam], fun
      | [.array a, .float r, .darray x, .bool s] => some ⟨a, r, none, some x, s⟩
      | _ => none⟩,
   ⟨[exactly .pts .array, plain .radius .float, sortParam], fun
      | [.array a, .float r, .bool s] => some ⟨a, r, none, none, s⟩
      | _ => none⟩,
   ⟨[exactly .pts .array, plain .radius .float, plain .e .float, exactly .nns .darray, sortParam], fun
      | [.array a, .float r, .float e, .darray x, .bool s] => some ⟨a, r, some e, some x, s⟩
      | _ => none⟩,
   ⟨[exactly .pts .array, plain .radius .float, plain .e .float, sortParam], fun
      | [.array a, .float r, .float e, .bool s] => some ⟨a, r, some e, none, s⟩
      | _ => none⟩]

/-- A search for `k` neighbors. -/
structure KnnCall (A F : Type) where
  pts : A
  k : Int
  e : Option F
  nns : Option A

/-- The overloads of `search_knn`, in order (def_kd_tree.cpp:59-110). -/
def knnOverloads : List (Overload A D F (KnnCall A F)) :=
  [⟨[exactly .pts .array, plain .k .int, exactly .nns .array], fun
      | [.array a, .int k, .array x] => some ⟨a, k, none, some x⟩
      | _ => none⟩,
   ⟨[exactly .pts .array, plain .k .int], fun
      | [.array a, .int k] => some ⟨a, k, none, none⟩
      | _ => none⟩,
   ⟨[exactly .pts .array, plain .k .int, plain .e .float, exactly .nns .array], fun
      | [.array a, .int k, .float e, .array x] => some ⟨a, k, some e, some x⟩
      | _ => none⟩,
   ⟨[exactly .pts .array, plain .k .int, plain .e .float], fun
      | [.array a, .int k, .float e] => some ⟨a, k, some e, none⟩
      | _ => none⟩]

/-- A search in boxes. -/
structure BoxCall (A D : Type) where
  boxes : A
  indices : Option D

/-- The overloads of `search_box`, in order (def_kd_tree.cpp:165-180). -/
def boxOverloads : List (Overload A D F (BoxCall A D)) :=
  [⟨[exactly .boxes .array, exactly .indices .darray], fun
      | [.array a, .darray x] => some ⟨a, some x⟩
      | _ => none⟩,
   ⟨[exactly .boxes .array], fun
      | [.array a] => some ⟨a, none⟩
      | _ => none⟩]

end Pico.Bind
