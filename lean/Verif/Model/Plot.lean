/-!
# plot_benchmarks.py

The script that turns the output of the benchmarks into plots: which benchmarks it takes, and what it shows of them.
Strings are lists of characters. `\d` is a decimal digit of ASCII here (in Python any decimal digit of Unicode), a
coordinate along the first axis is the natural number that its digits denote (`float` in the code, exact up to 2 ^ 53), and
the times are of any type.
-/

namespace Pico.Plot

/-- What a pattern of `re` matches at the beginning of a string, in the order in which it is tried: the groups, and the rest
of the string. -/
abbrev Pat (γ : Type) := List Char → List (γ × List Char)

/-- One pattern after the other. -/
def Pat.bind {γ δ : Type} (p : Pat γ) (f : γ → Pat δ) : Pat δ := fun s => (p s).flatMap fun m => f m.1 m.2

/-- The groups. -/
def Pat.groups {γ : Type} (a : γ) : Pat γ := fun s => [(a, s)]

/-- Alternatives, `w1|w2|...`. -/
def word (ws : List (List Char)) : Pat (List Char) := fun s =>
  ws.flatMap fun w => if w.isPrefixOf s then [(w, s.drop w.length)] else []

/-- `c*`, greedy. -/
def star (c : Char → Bool) : Pat (List Char)
  | [] => [([], [])]
  | x :: s => if c x then (star c s).map (fun m => (x :: m.1, m.2)) ++ [([], x :: s)] else [([], x :: s)]

/-- `c+`, greedy. -/
def plus (c : Char → Bool) : Pat (List Char) := fun s => (star c s).filter fun m => !m.1.isEmpty

/-- `(p)?`, greedy. -/
def opt {γ : Type} (p : Pat γ) : Pat (Option γ) := fun s => (p s).map (fun m => (some m.1, m.2)) ++ [(none, s)]

/-- `$`: the end of the string, or before a newline at its end. -/
def eos : Pat Unit := fun s => if s = [] ∨ s = ['\n'] then [((), s)] else []

/-- `pattern.match(s)`. -/
def Pat.first {γ : Type} (p : Pat γ) (s : List Char) : Option γ := (p s).head?.map (·.1)

/-- `.` -/
def dot (c : Char) : Bool := c != '\n'

/-- `[^/]` -/
def notSlash (c : Char) : Bool := c != '/'

/-- The named groups of `re_info` (plot_benchmarks.py:77). -/
structure Info where
  tree : List Char
  type : List Char
  x : List Char
  arg : Option (List Char)
  deriving DecidableEq

/-- `re_info` (plot_benchmarks.py:77). -/
def reInfo : Pat Info :=
  (word [['B', 'm']]).bind fun _ =>
  (plus dot).bind fun tree =>
  (word [['/']]).bind fun _ =>
  (word [['B', 'u', 'i', 'l', 'd'], ['K', 'n', 'n'], ['N', 'n'], ['R', 'a', 'd', 'i', 'u', 's']]).bind fun _ =>
  (word [['C', 't'], ['R', 't']]).bind fun ct =>
  (star notSlash).bind fun type =>
  (word [['/']]).bind fun _ =>
  (plus Char.isDigit).bind fun x =>
  (opt ((word [['/']]).bind fun _ => plus Char.isDigit)).bind fun arg =>
  (opt (word [['_', 'm', 'e', 'a', 'n']])).bind fun _ =>
  eos.bind fun _ =>
  Pat.groups ⟨tree, ct ++ type, x, arg⟩

/-- The patterns `.+/Build.+`, `.+/(Knn|Nn).+`, `.+/Radius.+` (plot_benchmarks.py:29-31). -/
def reCategory (kinds : List (List Char)) : Pat Unit :=
  (plus dot).bind fun _ => (word [['/']]).bind fun _ => (word kinds).bind fun _ => (plus dot).bind fun _ => Pat.groups ()

/-- A benchmark of the JSON file: its name and its `cpu_time` (plot_benchmarks.py:19, 23, 51). -/
abbrev Bench (τ : Type) := List Char × τ

/-- `filter_benchmarks` (plot_benchmarks.py:18-19). -/
def filterBenchmarks {τ : Type} (bs : List (Bench τ)) (p : Pat Unit) : List (Bench τ) :=
  bs.filter fun b => (p.first b.1).isSome

/-- `filter_benchmark_categories` (plot_benchmarks.py:22-32). -/
def filterCategories {τ : Type} (json : List (Bench τ)) : List (List (Bench τ)) :=
  let benchmarks := json.filter fun b => ['_', 'm', 'e', 'a', 'n'].isSuffixOf b.1
  let benchmarks := if benchmarks.isEmpty then json else benchmarks
  [filterBenchmarks benchmarks (reCategory [['B', 'u', 'i', 'l', 'd']]),
    filterBenchmarks benchmarks (reCategory [['K', 'n', 'n'], ['N', 'n']]),
    filterBenchmarks benchmarks (reCategory [['R', 'a', 'd', 'i', 'u', 's']])]

/-- The dictionary `plots` (plot_benchmarks.py:36), in the order of insertion: label, `x`, `y`. -/
abbrev Plots (τ : Type) := List (List Char × List Nat × List τ)

/-- The key `k` (plot_benchmarks.py:40-42, 47-49). -/
def key (m : Info) : List Char :=
  m.tree ++ '_' :: m.type ++ (match m.arg with
    | some a => if a.isEmpty then [] else '_' :: a
    | none => [])

/-- `plots[k] = {'x': [], 'y': []}` (plot_benchmarks.py:43). -/
def Plots.set {τ : Type} (k : List Char) : Plots τ → Plots τ
  | [] => [(k, [], [])]
  | e :: ps => if e.1 = k then (k, [], []) :: ps else e :: Plots.set k ps

/-- `plots[k]['x'].append(x)`, `plots[k]['y'].append(y)` (plot_benchmarks.py:50-51); `none`: KeyError. -/
def Plots.add {τ : Type} (k : List Char) (x : Nat) (y : τ) : Plots τ → Option (Plots τ)
  | [] => none
  | e :: ps => if e.1 = k then some ((e.1, e.2.1 ++ [x], e.2.2 ++ [y]) :: ps) else (Plots.add k x y ps).map (e :: ·)

/-- The first loop of `create_plots` (plot_benchmarks.py:38-43); `none`: no match, an AttributeError. -/
def createLabels {τ : Type} : List (Bench τ) → Plots τ → Option (Plots τ)
  | [], ps => some ps
  | b :: bs, ps =>
    match reInfo.first b.1 with
    | none => none
    | some m => createLabels bs (ps.set (key m))

/-- The second loop of `create_plots` (plot_benchmarks.py:45-51). -/
def createPoints {τ : Type} : List (Bench τ) → Plots τ → Option (Plots τ)
  | [], ps => some ps
  | b :: bs, ps =>
    match reInfo.first b.1 with
    | none => none
    | some m =>
      match ps.add (key m) (Nat.ofDigitChars 10 m.x 0) b.2 with
      | none => none
      | some ps => createPoints bs ps

/-- `create_plots` (plot_benchmarks.py:35-53). -/
def createPlots {τ : Type} (bs : List (Bench τ)) : Option (Plots τ) := (createLabels bs []).bind (createPoints bs)

/-- The plots of `main` (plot_benchmarks.py:76-78): build time, knn search time, radius search time. -/
def plots {τ : Type} (json : List (Bench τ)) : Option (List (Plots τ)) := (filterCategories json).mapM createPlots

end Pico.Plot
