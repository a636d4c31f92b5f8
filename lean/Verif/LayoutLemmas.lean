import Verif.LayoutSpec
import Verif.Value
import Verif.OccLemmas

/-
A general lemma about layouts: trees made of fixed constructs around given parts.
-/

namespace Verif
open Spec

theorem denL_first (e : Env) (b : Bool) (ts : List Tree) : denL false b e ts = denL false true e ts := by
  cases ts with
  | nil => simp [denL]
  | cons t ts =>
    cases t with
    | raw s => simp only [denL]; rw [denL_first e b ts]
    | node v kids => simp [denL, sepText]

theorem denL_append (e : Env) (as bs : List Tree) :
    denL false true e (as ++ bs) =
      ((denL false true e as).1 ++ (denL false true (denL false true e as).2 bs).1,
       (denL false true (denL false true e as).2 bs).2) := by
  induction as generalizing e with
  | nil => simp [denL]
  | cons t ts ih =>
    cases t with
    | raw s => simp only [List.cons_append, denL, ih, List.append_assoc]
    | node v kids =>
      simp only [List.cons_append, denL, denL_first _ false, ih, List.append_assoc]

theorem layout_append (e : Env) (ps qs : List Part) :
    layout e (ps ++ qs) = ((layout e ps).1 ++ (layout (layout e ps).2 qs).1, (layout (layout e ps).2 qs).2) := by
  induction ps generalizing e with
  | nil => simp [layout]
  | cons p ps ih => cases p <;> simp [layout, ih, List.append_assoc]

theorem dkeysL_append (as bs : List Tree) : dkeysL (as ++ bs) = dkeysL as ++ dkeysL bs := by
  induction as with
  | nil => simp [dkeysL]
  | cons t ts ih => simp [dkeysL, ih, List.append_assoc]

theorem holes_append (ps qs : List Part) : holes (ps ++ qs) = holes ps ++ holes qs := by
  induction ps with
  | nil => simp [holes]
  | cons p ps ih => cases p <;> simp [holes, ih, List.append_assoc]

theorem den_nd {e : Env} {k : Key} (h : e.al k = none) (op cl : Str) (sub : Bool) (kids : List Tree) :
    den e (nd k op cl sub kids) = (op ++ (denL sub true e kids).1 ++ cl, (denL sub true e kids).2) := by
  simp [nd, den, shown, h, described, defined, Vis.asAlias, Kind.isSub]

/-- Trees made of fixed constructs around given parts. -/
inductive Tm where
  | node (k : Key) (op cl : Str) (sub : Bool) (kids : List Tm)
  | hole (ts : List Tree)

mutual
def Tm.trees : Tm → List Tree
  | .node k op cl sub kids => [nd k op cl sub (Tm.treesL kids)]
  | .hole ts => ts
def Tm.treesL : List Tm → List Tree
  | [] => []
  | t :: ts => t.trees ++ Tm.treesL ts
end

mutual
def Tm.parts : Tm → List Part
  | .node _ op cl sub kids => .lit op :: (Tm.partsL sub true kids ++ [.lit cl])
  | .hole ts => [.hole ts]
def Tm.partsL (sub first : Bool) : List Tm → List Part
  | [] => []
  | t :: ts => (.lit (sepText sub first) :: t.parts) ++ Tm.partsL sub false ts
end

mutual
def Tm.keys : Tm → List Key
  | .node k _ _ _ kids => k :: Tm.keysL kids
  | .hole _ => []
def Tm.keysL : List Tm → List Key
  | [] => []
  | t :: ts => t.keys ++ Tm.keysL ts
end

mutual
/-- The elements of list constructs are single constructs. -/
def Tm.Ok : Tm → Prop
  | .node _ _ _ sub kids => Tm.OkL sub kids
  | .hole _ => True
def Tm.OkL (sub : Bool) : List Tm → Prop
  | [] => True
  | t :: ts => t.Ok ∧ (sub = true → One t.trees) ∧ Tm.OkL sub ts
end

theorem Spec.NoAlias.left {e : Env} {ks : List Key} {as bs : List Tree} (h : NoAlias e ks (as ++ bs)) : NoAlias e ks as := by
  intro k hk
  have := h k hk
  rw [dkeysL_append] at this
  exact ⟨this.1, fun hm => this.2 (List.mem_append_left _ hm)⟩

theorem Spec.NoAlias.right {e : Env} {ks : List Key} {as bs : List Tree} (sub first : Bool) (h : NoAlias e ks (as ++ bs)) :
    NoAlias (denL sub first e as).2 ks bs := by
  intro k hk
  have := h k hk
  rw [dkeysL_append] at this
  refine ⟨?_, fun hm => this.2 (List.mem_append_right _ hm)⟩
  rw [denL_al_of_not_mem]
  · exact this.1
  · exact fun hm => this.2 (List.mem_append_left _ hm)

theorem Spec.NoAlias.mono {e : Env} {ks ks' : List Key} {ts : List Tree} (h : NoAlias e ks ts) (hs : ∀ k ∈ ks', k ∈ ks) :
    NoAlias e ks' ts := fun k hk => h k (hs k hk)

theorem dkeysL_nd (k : Key) (op cl : Str) (sub : Bool) (kids : List Tree) : dkeysL [nd k op cl sub kids] = dkeysL kids := by
  simp [dkeysL, nd, dkeys, Vis.asAlias]

theorem dkeys_nd (k : Key) (op cl : Str) (sub : Bool) (kids : List Tree) : dkeys (nd k op cl sub kids) = dkeysL kids := by
  simp [nd, dkeys, Vis.asAlias]

theorem dkeys_leaf (k : Key) (t : Str) : dkeys (leaf k t) = [] := by simp [leaf, dkeys_nd, dkeysL]

theorem layout_lit_nil (e : Env) (ps : List Part) : layout e (.lit [] :: ps) = layout e ps := by simp [layout]

mutual
theorem Tm.layout (e : Env) (t : Tm) (ho : t.Ok) (ha : NoAlias e t.keys t.trees) :
    denL false true e t.trees = Spec.layout e t.parts := by
  match t with
  | .hole ts => simp [Tm.trees, Tm.parts, Spec.layout]
  | .node k op cl sub kids =>
    have hk : e.al k = none := (ha k (by simp [Tm.keys])).1
    have hkids : NoAlias e (Tm.keysL kids) (Tm.treesL kids) := by
      intro k' hk'
      have := ha k' (by simp [Tm.keys, hk'])
      simp only [Tm.trees, dkeysL_nd] at this
      exact this
    have ih := Tm.layoutL e sub true kids (by simpa [Tm.Ok] using ho) hkids
    have hd := den_nd hk op cl sub (Tm.treesL kids)
    simp only [Tm.trees, Tm.parts]
    have : denL false true e [nd k op cl sub (Tm.treesL kids)] = den e (nd k op cl sub (Tm.treesL kids)) := by
      simp [nd, denL, sepText]
    rw [this, hd, ih]
    simp [Spec.layout, layout_append, List.append_assoc]
theorem Tm.layoutL (e : Env) (sub first : Bool) (ts : List Tm) (ho : Tm.OkL sub ts)
    (ha : NoAlias e (Tm.keysL ts) (Tm.treesL ts)) :
    denL sub first e (Tm.treesL ts) = Spec.layout e (Tm.partsL sub first ts) := by
  match ts with
  | [] => simp [Tm.treesL, Tm.partsL, denL, Spec.layout]
  | t :: ts =>
    simp only [Tm.OkL] at ho
    simp only [Tm.treesL] at ha ⊢
    have h1 : NoAlias e t.keys t.trees := (ha.mono (by intro k hk; simp [Tm.keysL, hk])).left
    have h2 : NoAlias (denL false true e t.trees).2 (Tm.keysL ts) (Tm.treesL ts) :=
      (ha.mono (by intro k hk; simp [Tm.keysL, hk])).right false true
    have ih1 := Tm.layout e t ho.1 h1
    cases sub with
    | false =>
      rw [denL_first]
      rw [denL_append]
      have ih2 := Tm.layoutL (denL false true e t.trees).2 false false ts ho.2.2 h2
      rw [denL_first] at ih2
      rw [ih2, ih1]
      simp [Tm.partsL, Spec.layout, layout_append, sepText]
    | true =>
      obtain ⟨v, kids, hone⟩ := ho.2.1 rfl
      have ih2 := Tm.layoutL (denL false true e t.trees).2 true false ts ho.2.2 h2
      rw [hone] at ih1 ih2 ⊢
      have hd : denL false true e [.node v kids] = den e (.node v kids) := by simp [denL, sepText]
      rw [hd] at ih1 ih2
      rw [ih1] at ih2
      simp only [List.cons_append, List.nil_append]
      rw [denL]
      simp only [ih1, ih2]
      simp [Tm.partsL, Spec.layout, layout_append, sepText, List.append_assoc]
end

mutual
/-- The given parts of a term. -/
def Tm.holes : Tm → List Tree
  | .node _ _ _ _ kids => Tm.holesL kids
  | .hole ts => ts
def Tm.holesL : List Tm → List Tree
  | [] => []
  | t :: ts => t.holes ++ Tm.holesL ts
end

mutual
theorem Tm.dkeys_holes (t : Tm) : dkeysL t.trees = dkeysL t.holes := by
  match t with
  | .hole ts => simp [Tm.trees, Tm.holes]
  | .node k op cl sub kids => simp [Tm.trees, Tm.holes, dkeysL_nd, Tm.dkeys_holesL kids]
theorem Tm.dkeys_holesL (ts : List Tm) : dkeysL (Tm.treesL ts) = dkeysL (Tm.holesL ts) := by
  match ts with
  | [] => simp [Tm.treesL, Tm.holesL]
  | t :: ts => simp [Tm.treesL, Tm.holesL, dkeysL_append, Tm.dkeys_holes t, Tm.dkeys_holesL ts]
end

/-- The text of a term is the layout of its parts, if nobody gives an alias to the objects of the term itself. -/
theorem Tm.shown {e : Env} (t : Tm) (ho : t.Ok) {ks : List Key} {ts : List Tree} (ha : NoAlias e ks ts)
    (hk : ∀ k ∈ t.keys, k ∈ ks) (hs : ∀ k, k ∈ dkeysL t.holes → k ∈ dkeysL ts) :
    denL false true e t.trees = Spec.layout e t.parts := by
  apply Tm.layout e t ho
  intro k hk'
  have := ha k (hk k hk')
  rw [Tm.dkeys_holes]
  exact ⟨this.1, fun h => this.2 (hs k h)⟩

end Verif
