import Verif.RenderSpec

/-
Specification of layouts: a text given by fixed pieces and by parts that are rendered in their place.
-/

namespace Verif.Spec

/-- A piece of a layout: a fixed text, or a part (the calls its `accept` makes). -/
inductive Part where
  | lit (s : Str)
  | hole (ts : List Tree)

/-- The text of a layout, and the memories after it: the pieces one after the other, each part with the memories that the parts
before it have left. -/
def layout (e : Env) : List Part → Str × Env
  | [] => ([], e)
  | .lit s :: ps => (s ++ (layout e ps).1, (layout e ps).2)
  | .hole ts :: ps =>
    ((denL false true e ts).1 ++ (layout (denL false true e ts).2 ps).1, (layout (denL false true e ts).2 ps).2)

/-- Pieces with a fixed text between each two of them. -/
def sepParts (sep : Str) : List (List Part) → List Part
  | [] => []
  | [p] => p
  | p :: q :: ps => p ++ .lit sep :: sepParts sep (q :: ps)

/-- The parts of a layout. -/
def holes : List Part → List Tree
  | [] => []
  | .lit _ :: ps => holes ps
  | .hole ts :: ps => ts ++ holes ps

/-- Nobody gives an alias to the objects `ks`: none is defined before, and none among the parts `ts`. -/
def NoAlias (e : Env) (ks : List Key) (ts : List Tree) : Prop := ∀ k ∈ ks, e.al k = none ∧ k ∉ dkeysL ts

/-- `ts` are the calls of one construct. -/
def One (ts : List Tree) : Prop := ∃ v kids, ts = [.node v kids]

/-- The text of a value in given memories. -/
def shownAs (e : Env) (ts : List Tree) : Str × Env := denL false true e ts

end Verif.Spec
