import Verif.Model.KdTree
import Verif.SpecTree

/-!
# Vocabulary for statements about the work of a search

`searchTrace` follows `searchNearest` (`Model/Search.lean`, kd_tree_search.hpp:52-105, 150-203) and lists the nodes for
which `search_nearest` is called, in order.
-/

namespace Pico.Spec

section
variable {α : Type} [LT α] [LE α] [DecidableLT α] [DecidableLE α] [Zero α] [Add α] [Sub α] {d : Nat} {β σ : Type}

/-- The nodes that a search visits below a node, in order: the node, what is visited below the child that is searched
first, and what is visited below the other child if `max()` is not less than the distance to it. -/
def searchTrace (splitDim : β → Fin d) (pick : β → Bool × α) (V : Visitor α σ) (dist : Nat → α) (indices : List Nat) :
    Tree β → α → Pt α d × σ → List (Tree β)
  | .leaf b e, _, _ => [.leaf b e]
  | .branch data l r, D, st =>
    let st1 := searchNearest splitDim pick V dist indices (if (pick data).1 then l else r) D st
    let D' := D - st1.1 (splitDim data) + (pick data).2
    let st' := (Function.update st1.1 (splitDim data) (pick data).2, st1.2)
    let far := if V.max st1.2 ≥ D' then
        (if (pick data).1 then searchTrace splitDim pick V dist indices r D' st'
         else searchTrace splitDim pick V dist indices l D' st')
      else []
    .branch data l r ::
      (if (pick data).1 then searchTrace splitDim pick V dist indices l D st
       else searchTrace splitDim pick V dist indices r D st) ++ far

end

/-- The index ranges of the leaves among some nodes. -/
def openedOf {β : Type} (l : List (Tree β)) : List (Nat × Nat) :=
  l.filterMap fun t => match t with
    | .leaf b e => some (b, e)
    | .branch _ _ _ => none

end Pico.Spec

namespace Pico

section
variable {α : Type} [LT α] [LE α] [DecidableLT α] [DecidableLE α] [Zero α] [One α] [Add α] [Sub α] {d : Nat} {β σ : Type}

/-- The nodes visited by `T.searchNearest q V s`. -/
def KdTree.trace (T : KdTree α d β) (q : Pt α d) (V : Visitor α σ) (s : σ) : List (Tree β) :=
  Spec.searchTrace T.tag.splitDim (T.tag.pick T.metric q) V (fun i => T.metric.dist q (T.pts i)) T.data.indices
    T.data.root 0 (fun _ => 0, s)

end

end Pico
