import Verif.PropsBrackets
import Verif.PropsKeys
import Verif.PropsReuse
import Verif.LayoutLemmas

/-
C84 What is rendered if no two objects of a statement have the same address.

C07, C09 to C12 and C40 say that keys behave like the identities of objects with a table of aliases (`AlOk`, `WFL`).  Here this follows
from what a programmer can see: one address, one object.
-/

namespace Verif
open Spec

namespace Spec

/-- One address belongs to one object.  The parts of an alias are the parts of the expression that it was given to, so the delegate of
an alias is an object of the statement, too. -/
structure OneObject (ts : List Tree) : Prop where
  /-- what has the same address has the same content -/
  one : ∀ x ∈ Tree.subsL ts, ∀ y ∈ Tree.subsL ts, x.1.key ≠ 0 → x.1.key = y.1.key → x = y
  /-- an alias, and what it was given to, have addresses -/
  addressed : ∀ x ∈ Tree.subsL ts, ∀ a, x.1.asAlias = some a → a.key ≠ 0 ∧ a.dkey ≠ 0
  /-- a named node has an address, or none of its parts is without one -/
  named : ∀ x ∈ Tree.subsL ts, ∀ n, x.1.kind = .node (some n) → x.1.key ≠ 0 ∨ ∀ y ∈ Tree.subsL x.2, y.1.key ≠ 0
  /-- an object at the address of what an alias was given to is what the alias was given to -/
  delegate : ∀ x ∈ Tree.subsL ts, ∀ a, x.1.asAlias = some a → ∀ y ∈ Tree.subsL ts, y.1.key = a.dkey → x.2 = [.node y.1 y.2]
  /-- what two aliases were given to is the same if it has the same address -/
  delegates : ∀ x ∈ Tree.subsL ts, ∀ a, x.1.asAlias = some a → ∀ y ∈ Tree.subsL ts, ∀ b, y.1.asAlias = some b → b.dkey = a.dkey → x.2 = y.2

/-- The aliases of a statement. -/
def aliasesOf (ts : List Tree) : List Al := (Tree.subsL ts).filterMap (·.1.asAlias)

end Spec

mutual
theorem subs_size : ∀ t : Tree, ∀ y ∈ t.subs, sizeOf y.2 < sizeOf t
  | .raw _, y, h => by simp [Tree.subs] at h
  | .node v kids, y, h => by
    simp only [Tree.subs, List.mem_cons] at h
    simp only [Tree.node.sizeOf_spec]
    rcases h with rfl | h
    · simp only; omega
    · have := subsL_size kids y h; omega
theorem subsL_size : ∀ ts : List Tree, ∀ y ∈ Tree.subsL ts, sizeOf y.2 < sizeOf ts
  | [], y, h => by simp [Tree.subsL] at h
  | t :: ts, y, h => by
    simp only [Tree.subsL, List.mem_append] at h
    simp only [List.cons.sizeOf_spec]
    rcases h with h | h
    · have := subs_size t y h; omega
    · have := subsL_size ts y h; omega
end

mutual
theorem keys_subs : ∀ t : Tree, ∀ k ∈ keys t, ∃ y ∈ t.subs, y.1.key = k ∨ ∃ a, y.1.asAlias = some a ∧ a.dkey = k
  | .raw _, k, h => by simp [keys] at h
  | .node v kids, k, h => by
    simp only [keys, List.mem_append, List.mem_cons] at h
    rcases h with (h | h) | h
    · exact ⟨(v, kids), by simp [Tree.subs], .inl h.symm⟩
    · cases ha : v.asAlias with
      | none => simp [ha] at h
      | some a =>
        simp only [ha, List.mem_cons, List.not_mem_nil, or_false] at h
        exact ⟨(v, kids), by simp [Tree.subs], .inr ⟨a, ha, h.symm⟩⟩
    · obtain ⟨y, hy, h⟩ := keysL_subs kids k h
      exact ⟨y, by simp [Tree.subs, hy], h⟩
theorem keysL_subs : ∀ ts : List Tree, ∀ k ∈ keysL ts, ∃ y ∈ Tree.subsL ts, y.1.key = k ∨ ∃ a, y.1.asAlias = some a ∧ a.dkey = k
  | [], k, h => by simp [keysL] at h
  | t :: ts, k, h => by
    simp only [keysL, List.mem_append] at h
    rcases h with h | h
    · obtain ⟨y, hy, h⟩ := keys_subs t k h
      exact ⟨y, by simp [Tree.subsL, hy], h⟩
    · obtain ⟨y, hy, h⟩ := keysL_subs ts k h
      exact ⟨y, by simp [Tree.subsL, hy], h⟩
end

theorem subsL_append : ∀ (ts us : List Tree), Tree.subsL (ts ++ us) = Tree.subsL ts ++ Tree.subsL us
  | [], us => rfl
  | t :: ts, us => by simp [Tree.subsL, subsL_append ts us]

theorem Spec.OneObject.alOk {ts : List Tree} (h : OneObject ts) : AlOk (aliases (aliasesOf ts)) := by
  intro k a ha
  have hm := List.mem_of_find?_eq_some ha
  have hk := List.find?_some ha
  simp only [decide_eq_true_eq] at hk
  obtain ⟨x, hx, hxa⟩ := List.mem_filterMap.1 hm
  obtain ⟨h1, h2⟩ := h.addressed x hx a hxa
  refine ⟨hk, hk ▸ h1, h2, fun he => ?_⟩
  have := h.delegate x hx a hxa x hx (by rw [he, ← hk, (asAlias_key hxa).1])
  have := congrArg sizeOf this
  simp at this
  omega

theorem Spec.OneObject.at {ts : List Tree} (h : OneObject ts) {x : Vis × List Tree} (hx : x ∈ Tree.subsL ts) :
    aliases (aliasesOf ts) x.1.key = x.1.asAlias := by
  cases hf : aliases (aliasesOf ts) x.1.key with
  | none =>
    cases ha : x.1.asAlias with
    | none => rfl
    | some a =>
      have := List.find?_eq_none.1 hf a (List.mem_filterMap.2 ⟨x, hx, ha⟩)
      simp [(asAlias_key ha).1] at this
  | some b =>
    have hm := List.mem_of_find?_eq_some hf
    have hk := List.find?_some hf
    simp only [decide_eq_true_eq] at hk
    obtain ⟨y, hy, hyb⟩ := List.mem_filterMap.1 hm
    have h1 := (h.addressed y hy b hyb).1
    rw [h.one x hx y hy (hk ▸ h1) (by rw [← hk, (asAlias_key hyb).1]), hyb]

mutual
theorem Spec.OneObject.wf_in {ts : List Tree} (h : OneObject ts) : ∀ t : Tree, (∀ x ∈ t.subs, x ∈ Tree.subsL ts) → WF (aliases (aliasesOf ts)) t
  | .raw _, _ => by rw [WF]; trivial
  | .node v kids, hs => by
    have hx : (v, kids) ∈ Tree.subsL ts := hs _ (by simp [Tree.subs])
    have hk : ∀ y ∈ Tree.subsL kids, y ∈ Tree.subsL ts := fun y hy => hs y (by simp [Tree.subs, hy])
    rw [WF]
    refine ⟨h.at hx, fun hsp hin => ?_, fun a ha => ?_, h.wfL_in kids hk⟩
    · obtain ⟨y, hy, hyk⟩ := keysL_subs kids _ hin
      have hlt := subsL_size kids y hy
      rcases hyk with hyk | ⟨b, hb, hbk⟩
      · by_cases h0 : v.key = 0
        · rcases hsp with ⟨k, a, ha, hak⟩ | ⟨n, hn⟩ | hal
          · exact (h.alOk k a ha).2.2.1 (hak.trans h0)
          · rcases h.named _ hx n hn with h1 | h1
            · exact h1 h0
            · exact h1 y hy (hyk.trans h0)
          · obtain ⟨a, ha⟩ := Option.isSome_iff_exists.1 hal
            exact (h.alOk _ a ha).2.1 h0
        · have := h.one _ hx y (hk y hy) h0 hyk.symm
          rw [← this] at hlt
          exact Nat.lt_irrefl _ hlt
      · rw [h.delegate y (hk y hy) b hb _ hx hbk.symm] at hlt
        simp at hlt
        omega
    · by_cases hin : a.dkey ∈ keysL kids
      · obtain ⟨y, hy, hyk⟩ := keysL_subs kids _ hin
        rcases hyk with hyk | ⟨b, hb, hbk⟩
        · exact .inl ⟨y.1, y.2, h.delegate _ hx a ha y (hk y hy) hyk, hyk⟩
        · have hlt := subsL_size kids y hy
          have := h.delegates _ hx a ha y (hk y hy) b hb hbk
          simp only at this
          rw [← this] at hlt
          exact absurd hlt (Nat.lt_irrefl _)
      · exact .inr hin
theorem Spec.OneObject.wfL_in {ts : List Tree} (h : OneObject ts) : ∀ us : List Tree, (∀ x ∈ Tree.subsL us, x ∈ Tree.subsL ts) → WFL (aliases (aliasesOf ts)) us
  | [], _ => by rw [WFL]; trivial
  | t :: us, hs => by
    rw [WFL]
    exact ⟨h.wf_in t fun x hx => hs x (by simp [Tree.subsL, hx]), h.wfL_in us fun x hx => hs x (by simp [Tree.subsL, hx])⟩
end


theorem Spec.OneObject.wfL {ts : List Tree} (h : OneObject ts) : WFL (aliases (aliasesOf ts)) ts := h.wfL_in ts fun _ hx => hx

/-- The parts of the statements that can be rendered, one after the other. -/
def Spec.allParts (sts : List Statement) : List Tree := sts.flatMap fun s => if s.err.isSome then [] else s.visit

theorem idle_render {u : Unicode} {alOf : Key → Option Al} (hok : AlOk alOf) {r : RState} (hr : Idle alOf r) (s : Statement)
    (hw : WFL alOf (allParts [s])) :
    Idle alOf (render u r (some s)).2 ∧ envOf (render u r (some s)).2 = (denL false true (envOf r) (allParts [s])).2 := by
  cases he : s.err with
  | some e => simp [render, he, allParts, denL]; exact hr
  | none =>
    have hv : allParts [s] = s.visit := by simp [allParts, he]
    rw [hv] at hw ⊢
    have htop := refine_top hok r s.visit hw hr.skip hr.al hr.astack hr.seps hr.stack
    simp only [render, he, htop]
    refine ⟨⟨hr.skip, ?_, hr.astack, ?_, hr.stack, hr.out⟩, rfl⟩
    · simp only [RState.upd]
      exact denL_AlInv _ _ _ _ hr.al hw
    · simp only [RState.upd]; exact hr.seps

theorem wfL_append {alOf : Key → Option Al} : ∀ {ts us : List Tree}, WFL alOf (ts ++ us) ↔ WFL alOf ts ∧ WFL alOf us
  | [], us => by simp [WFL]
  | t :: ts, us => by simp [WFL, wfL_append (ts := ts), and_assoc]

theorem idle_used {u : Unicode} {alOf : Key → Option Al} (hok : AlOk alOf) (sts : List Statement) : ∀ {r : RState}, Idle alOf r →
    WFL alOf (allParts sts) → Idle alOf (sts.foldl (fun r s => (render u r (some s)).2) r) ∧
      envOf (sts.foldl (fun r s => (render u r (some s)).2) r) = (denL false true (envOf r) (allParts sts)).2 := by
  induction sts with
  | nil => intro r hr _; exact ⟨hr, by simp [allParts, denL]⟩
  | cons s sts ih =>
    intro r hr hw
    have hsplit : allParts (s :: sts) = allParts [s] ++ allParts sts := by simp [allParts]
    rw [hsplit, wfL_append] at hw
    obtain ⟨h1, h2⟩ := idle_render (u := u) hok hr s hw.1
    obtain ⟨h3, h4⟩ := ih h1 hw.2
    refine ⟨h3, ?_⟩
    rw [List.foldl_cons, h4, h2, hsplit, denL_append]

/-! ### A check of `OneObject` -/

namespace ObjectCheck

mutual
def same : Tree → Tree → Bool
  | .raw s, .raw t => s == t
  | .node v ks, .node w ls => v == w && sameL ks ls
  | _, _ => false
def sameL : List Tree → List Tree → Bool
  | [], [] => true
  | t :: ts, s :: ss => same t s && sameL ts ss
  | _, _ => false
end

mutual
theorem same_eq : ∀ t s, same t s = true → t = s
  | .raw _, .raw _, h => by simp only [same, beq_iff_eq] at h; rw [h]
  | .node v ks, .node w ls, h => by
    simp only [same, Bool.and_eq_true, beq_iff_eq] at h
    rw [h.1, sameL_eq ks ls h.2]
  | .raw _, .node _ _, h => by simp [same] at h
  | .node _ _, .raw _, h => by simp [same] at h
theorem sameL_eq : ∀ ts ss, sameL ts ss = true → ts = ss
  | [], [], _ => rfl
  | t :: ts, s :: ss, h => by
    simp only [sameL, Bool.and_eq_true] at h
    rw [same_eq t s h.1, sameL_eq ts ss h.2]
  | [], _ :: _, h => by simp [sameL] at h
  | _ :: _, [], h => by simp [sameL] at h
end

/-- The conditions of `OneObject` on two objects. -/
def pair (x y : Vis × List Tree) : Bool :=
  (x.1.key == 0 || x.1.key != y.1.key || (x.1 == y.1 && sameL x.2 y.2)) &&
  match x.1.asAlias with
  | none => true
  | some a => a.key != 0 && a.dkey != 0 && (y.1.key != a.dkey || sameL x.2 [.node y.1 y.2]) &&
      match y.1.asAlias with
      | none => true
      | some b => b.dkey != a.dkey || sameL x.2 y.2

def ok (ts : List Tree) : Bool :=
  (Tree.subsL ts).all fun x => (Tree.subsL ts).all (pair x) &&
    (match x.1.kind with
     | .node (some _) => x.1.key != 0 || (Tree.subsL x.2).all fun y => y.1.key != 0
     | _ => true)

theorem oneObject {ts : List Tree} (h : ok ts = true) : OneObject ts := by
  simp only [ok, List.all_eq_true, Bool.and_eq_true] at h
  refine ⟨fun x hx y hy h0 hk => ?_, fun x hx a ha => ?_, fun x hx n hn => ?_, fun x hx a ha y hy hk => ?_, fun x hx a ha y hy b hb hk => ?_⟩
  · have := (h x hx).1 y hy
    simp only [pair, Bool.and_eq_true] at this
    obtain ⟨hx1, hx2⟩ : x.1 = y.1 ∧ sameL x.2 y.2 = true := by simpa [h0, hk, hk ▸ h0] using this.1
    exact Prod.ext hx1 (sameL_eq _ _ hx2)
  · have := (h x hx).1 x hx
    simp only [pair, ha, Bool.and_eq_true, bne_iff_ne] at this
    exact ⟨this.2.1.1.1, this.2.1.1.2⟩
  · have := (h x hx).2
    simp only [hn, Bool.or_eq_true, bne_iff_ne, List.all_eq_true] at this
    exact this
  · have := (h x hx).1 y hy
    simp only [pair, ha, Bool.and_eq_true, bne_iff_ne, Bool.or_eq_true, ne_eq] at this
    exact sameL_eq _ _ (this.2.1.2.resolve_left (fun h => h hk))
  · have := (h x hx).1 y hy
    simp only [pair, ha, hb, Bool.and_eq_true, bne_iff_ne, Bool.or_eq_true, ne_eq] at this
    exact sameL_eq _ _ (this.2.2.resolve_left (fun h => h hk))

end ObjectCheck

/-! ### C84 One address, one object -/

/-- C84: if one address belongs to one object, a new renderer makes of a statement the text of its parts, put together. -/
theorem C84_composed (u : Unicode) (st : Statement) (he : st.err = none) (h : OneObject st.visit) :
    (render u RState.new (some st)).1 = .ok (trimSpace u (text st.visit)) := by
  have := C07_compositional _ h.alOk _ h.wfL
  unfold renderOut at this
  simp [render, he, this]

namespace SampleObjects
open SampleKeys

def n : Val := SampleKeys.node 2 3 4 c!"L" c!"n"

/-- `Match(n).Returning(x.As("a"), y, x, n)`, with `n` a node with a label. -/
def st : Statement := ⟨none, (matched [n]).visit ++
  (returnCreate 60 61 false [aliasedCreate .ascii 1 (some x) c!"a", y, x, n] {}).elim [] (·.visit)⟩

/-- `Match(n).Returning(x)`, with the same node and the same expression. -/
def st' : Statement := ⟨none, (matchCreate 70 71 false [n] none).val.visit ++ (returnCreate 80 81 false [x] {}).elim [] (·.visit)⟩

theorem one_st : OneObject st.visit := ObjectCheck.oneObject (by decide +kernel)
theorem one_both : OneObject (allParts ([st] ++ [st'])) := ObjectCheck.oneObject (by decide +kernel)
theorem one_calls : OneObject (SampleBrackets.stmt SampleBrackets.calls).visit := ObjectCheck.oneObject (by decide +kernel)

end SampleObjects
open SampleObjects

-- the hypothesis holds, with an alias and a node that occur twice
example : (render .ascii RState.new (some st)).1 = .ok c!"MATCH (n:`L`) RETURN x AS a, y, a, (n)" := by decide +kernel
example : trimSpace .ascii (text st.visit) = c!"MATCH (n:`L`) RETURN x AS a, y, a, (n)" := by
  have := C84_composed .ascii st rfl one_st
  rw [show (render .ascii RState.new (some st)).1 = .ok c!"MATCH (n:`L`) RETURN x AS a, y, a, (n)" by decide +kernel] at this
  exact (Except.ok.inj this).symm

/-- C84, a renderer that was used before: together with the text of all statements before, the text of a statement is the text of all
of them in one. -/
theorem C84_sequence (u : Unicode) (before : List Statement) (st : Statement) (he : st.err = none)
    (h : OneObject (allParts (before ++ [st]))) :
    ∃ t, (render u (used u before) (some st)).1 = .ok (trimSpace u t) ∧
      text (allParts before) ++ t = text (allParts (before ++ [st])) := by
  have hsplit : allParts (before ++ [st]) = allParts before ++ st.visit := by simp [allParts, he]
  have hw := h.wfL
  rw [hsplit, wfL_append] at hw
  have hi : Idle (aliases (aliasesOf (allParts before ++ st.visit))) RState.new :=
    ⟨rfl, fun k a h => by simp [RState.new] at h, rfl, fun _ => rfl, rfl, rfl⟩
  have hok := h.alOk
  rw [hsplit] at hok
  obtain ⟨h1, h2⟩ := idle_used (u := u) hok before hi hw.1
  have h3 := refine_idle hok h1 st.visit hw.2
  unfold renderOut at h3
  refine ⟨((used u before).run (acceptL st.visit)).out, by simp only [render, he], ?_⟩
  unfold used
  rw [h3, h2, hsplit, text, text, denL_append]
  rfl

-- a second statement with the node and the expression of the first one
example : (render .ascii (used .ascii [st]) (some st')).1 = .ok c!"MATCH (n) RETURN a" := by decide +kernel
example : ∃ t, (render .ascii (used .ascii [st]) (some st')).1 = .ok (trimSpace .ascii t) ∧
    text (allParts [st]) ++ t = text (allParts [st, st']) := C84_sequence .ascii [st] st' rfl one_both

/-- C84 fails if two objects share an address: with `c := x.IsEqualTo(1).And(y.IsEqualTo(1))`, the condition
`d := c.And(c.As("a").IsEqualTo(z))` is made at the address of `c` (compound_condition.go:148-176), and inside of `d` its address gets an
alias.  `Returning(d, z)` loses the closing bracket of `d` and the separator after it. -/
theorem C84_shared :
    let d := (Cond.combine ⟨113, 114, 115⟩ SampleKeys.both .and (.atom (comparisonCreate 116 0 0 (some (aliasedCreate .ascii 2 (some SampleKeys.both.toVal) c!"a"))
      .equality (some SampleKeys.z)))).toVal
    SampleKeys.rendered (SampleKeys.returned [d, SampleKeys.z]) = .ok c!"RETURN (x = 1 AND y = 1 AND (x = 1 AND y = 1) AS a = zz" ∧
    trimSpace .ascii (text (SampleKeys.returned [d, SampleKeys.z]).visit) = c!"RETURN (x = 1 AND y = 1 AND (x = 1 AND y = 1) AS a = z), z" ∧
    ¬ Whole c!"RETURN (x = 1 AND y = 1 AND (x = 1 AND y = 1) AS a = zz" := by decide +kernel

/-- C40 without a table of aliases: in the text of every statement that can be made with the library, and in which one address belongs to one object, all
brackets and quotation marks are closed. -/
theorem C40_objects_partial (u : Unicode) (s : Stmt) (ha : Api u (.stmt s)) (h : OneObject s.visit) (q : Str)
    (hq : (render u RState.new (some ⟨s.err, s.visit⟩)).1 = .ok q) : Whole q :=
  C40_one_partial u _ h.alOk s ha h.wfL q hq

example (q : Str) (hq : SampleBrackets.out (SampleBrackets.stmt SampleBrackets.calls) = .ok q) : Whole q :=
  C40_objects_partial .ascii _ api_stmt one_calls q hq

end Verif
