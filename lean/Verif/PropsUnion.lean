import Verif.PropsClauses

/-
C68: exactly which nestings of `Union` and `UnionAll` are accepted, and the text of those that are.
-/

namespace Verif.Spec

/-- What a program asks for: a query it has built, or `Union(…)`/`UnionAll(…)` of such requests.  `key` and `keys` are the
addresses of the objects that the call makes. -/
inductive Ask where
  | query (visit : List Tree) (err : Option Err) (returns : Bool)
  | union (all : Bool) (key : Key) (keys : Nat → Key) (parts : List Ask)

mutual
/-- The call itself. -/
def Ask.make : Ask → Stmt
  | .query v e r => .query v e r
  | .union all k ks ps => unionImpl k ks all (makeEach ps)
def makeEach : List Ask → List Stmt
  | [] => []
  | p :: ps => p.make :: makeEach ps
end

def Ask.isUnion : Ask → Bool
  | .query .. => false
  | .union .. => true

mutual
/-- Is the request accepted?  A query has to be free of errors.  A union needs two parts or more, and all parts after the first
have to be accepted.  If the first part is a union as well, then either it is accepted and of the same kind; or it is not
accepted, and then it is left out if this is a `UNION` (not `UNION ALL`) and two parts or more remain. -/
def Ask.accepted : Ask → Bool
  | .query _ e _ => e.isNone
  | .union all _ _ ps => acceptedAll all ps
def acceptedAll (all : Bool) : List Ask → Bool
  | [] => false
  | p :: ps =>
    !ps.isEmpty && acceptedEach ps &&
      match p with
      | .query _ e _ => e.isNone
      | .union all' _ _ qs => if acceptedAll all' qs then all' == all else !all && decide (2 ≤ ps.length)
def acceptedEach : List Ask → Bool
  | [] => true
  | p :: ps => p.accepted && acceptedEach ps
end

/-- A union that is left out because it was not accepted. -/
def Ask.lost (p : Ask) : Bool := p.isUnion && !p.accepted

/-- The word between two parts. -/
def unionWord (all : Bool) : Part := .lit (if all then c!" UNION ALL " else c!" UNION ")

mutual
/-- The text of a request: its queries in order, and between each two parts of a union the word of that union. -/
def Ask.parts : Ask → List Part
  | .query v _ _ => [.hole v]
  | .union all _ _ ps => partsKept all ps
/-- A union that was not accepted is left out if it comes first. -/
def partsKept (all : Bool) : List Ask → List Part
  | [] => []
  | p :: ps => if p.lost then partsEach all ps else p.parts ++ partsMore all ps
def partsEach (all : Bool) : List Ask → List Part
  | [] => []
  | p :: ps => p.parts ++ partsMore all ps
def partsMore (all : Bool) : List Ask → List Part
  | [] => []
  | p :: ps => unionWord all :: (p.parts ++ partsMore all ps)
end

mutual
/-- The queries of a request, from left to right. -/
def Ask.queries : Ask → List (List Tree)
  | .query v _ _ => [v]
  | .union _ _ _ ps => queriesL ps
def queriesL : List Ask → List (List Tree)
  | [] => []
  | p :: ps => p.queries ++ queriesL ps
end

mutual
/-- The addresses of the objects that the calls make. -/
def Ask.Owns : Ask → Key → Prop
  | .query .., _ => False
  | .union _ k0 ks ps, k => k = k0 ∨ (∃ i, k = ks i) ∨ OwnsL ps k
def OwnsL : List Ask → Key → Prop
  | [], _ => False
  | p :: ps, k => p.Owns k ∨ OwnsL ps k
end

mutual
/-- All queries are without errors, all unions are of this kind and have two parts or more. -/
def Ask.Uniform (all : Bool) : Ask → Prop
  | .query _ e _ => e = none
  | .union all' _ _ ps => all' = all ∧ 2 ≤ ps.length ∧ UniformL all ps
def UniformL (all : Bool) : List Ask → Prop
  | [] => True
  | p :: ps => p.Uniform all ∧ UniformL all ps
end

end Verif.Spec

namespace Verif
open Spec

/-! ### Lemmas -/

/-- No alias for one of these objects in the memory. -/
def FreeEnv (P : Key → Prop) (e : Env) : Prop := ∀ k, P k → e.al k = none
def FreeTs (P : Key → Prop) (ts : List Tree) : Prop := ∀ k, P k → k ∉ dkeysL ts

theorem FreeEnv.after {P : Key → Prop} {e : Env} {ts : List Tree} (h : FreeEnv P e) (ht : FreeTs P ts) :
    FreeEnv P (denL false true e ts).2 := fun k hk => (denL_al_of_not_mem _ _ _ _ _ (ht k hk)).trans (h k hk)

theorem FreeEnv.layout {P : Key → Prop} (ps : List Part) {e : Env} (h : FreeEnv P e) (ht : FreeTs P (holes ps)) :
    FreeEnv P (layout e ps).2 := by
  induction ps generalizing e with
  | nil => exact h
  | cons p ps ih =>
    cases p with
    | lit s => exact ih h ht
    | hole ts =>
      refine ih (h.after fun k hk => ?_) fun k hk => ?_
      · have := ht k hk; simp only [holes, dkeysL_append, List.mem_append, not_or] at this; exact this.1
      · have := ht k hk; simp only [holes, dkeysL_append, List.mem_append, not_or] at this; exact this.2

theorem layout_cons_lit (e : Env) (s : Str) (ps : List Part) :
    layout e (.lit s :: ps) = (s ++ (layout e ps).1, (layout e ps).2) := rfl

/-- The text of more parts of a union. -/
def moreParts (all : Bool) : List (List Tree) → List Part
  | [] => []
  | q :: qs => unionWord all :: .hole q :: moreParts all qs

theorem unionParts_cons (all : Bool) (q : List Tree) (qs : List (List Tree)) :
    unionParts all (q :: qs) = .hole q :: moreParts all qs := by
  induction qs generalizing q with
  | nil => simp [unionParts, sepParts, moreParts]
  | cons r qs ih =>
    have := ih r
    unfold unionParts at this ⊢
    simp only [List.map_cons, sepParts, moreParts, unionWord, List.cons_append, List.nil_append] at this ⊢
    rw [this]

theorem moreParts_append (all : Bool) (ps qs : List (List Tree)) :
    moreParts all (ps ++ qs) = moreParts all ps ++ moreParts all qs := by
  induction ps with
  | nil => rfl
  | cons p ps ih => simp [moreParts, ih]

theorem unionParts_append (all : Bool) (ps qs : List (List Tree)) (h : ps ≠ []) :
    unionParts all (ps ++ qs) = unionParts all ps ++ moreParts all qs := by
  cases ps with
  | nil => exact absurd rfl h
  | cons p ps => rw [List.cons_append, unionParts_cons, unionParts_cons, moreParts_append, List.cons_append]

/-- What a call gives, in the good case. -/
theorem union_made {P : Key → Prop} (k : Key) (ks : Nat → Key) (all : Bool) (qs : List Stmt) (h2 : 2 ≤ qs.length)
    (hq : ∀ q ∈ qs, q.err = none ∧ FreeTs P q.visit) :
    ∃ v, unionQuery k ks all qs = .union v none all true qs ∧ FreeTs P v ∧
      (P k → (∀ i, P (ks i)) → ∀ e, FreeEnv P e → shownAs e v = layout e (unionParts all (qs.map Stmt.visit))) := by
  obtain ⟨v, hv, -⟩ := union_query (e := Env.empty) k ks all qs h2 fun q h => (hq q h).1
  have hf : FreeTs P v := by
    match qs, h2 with
    | q :: r :: rest, _ =>
      have hne : firstErr ((q :: r :: rest).map Stmt.err) = none := by
        rw [firstErr_none_iff]
        simpa using fun q h => (hq q h).1
      rw [unionQuery, hne] at hv
      injection hv with hv
      intro j hj hm
      rw [← hv] at hm
      have aux : ∀ (ss : List Stmt) (i : Nat), (∀ s ∈ ss, FreeTs P s.visit) →
          j ∉ dkeysL ((ss.zipIdx i).map fun p => unionPart (ks p.2) all p.1) := by
        intro ss
        induction ss with
        | nil => intro i _; simp [dkeysL]
        | cons s ss ih =>
          intro i hs
          simp only [List.zipIdx_cons, List.map_cons, dkeysL, unionPart, nd, dkeys, Vis.asAlias, List.nil_append,
            List.mem_append, not_or]
          exact ⟨hs s (by simp) j hj, ih (i + 1) fun s' h => hs s' (by simp [h])⟩
      simp only [nd, dkeysL, dkeys, Vis.asAlias, List.nil_append, List.append_nil, dkeysL_append, List.mem_append] at hm
      rcases hm with hm | hm
      · exact (hq q (by simp)).2 j hj hm
      · exact aux (r :: rest) 0 (fun s h => (hq s (by simp only [List.mem_cons] at h ⊢; exact Or.inr h)).2) hm
  refine ⟨v, hv, hf, fun hk hks e he => ?_⟩
  obtain ⟨v', hv', ht⟩ := union_query (e := e) k ks all qs h2 fun q h => (hq q h).1
  rw [hv] at hv'
  injection hv' with hv'
  subst hv'
  refine ht fun j hj => ?_
  have hp : P j := by
    simp only [List.mem_cons, List.mem_map] at hj
    rcases hj with rfl | ⟨i, _, rfl⟩
    · exact hk
    · exact hks i
  exact ⟨he j hp, hf j hp⟩

/-- What is true of every request; `Q`: the objects of the unions are among `P`. -/
structure Asked (P : Key → Prop) (Q : Prop) (r : Ask) : Prop where
  err : r.make.err = none ↔ r.accepted = true
  bad : r.isUnion = true → r.accepted = false → ∃ e, r.make = .union [] (some e) false false []
  free : r.accepted = true → FreeTs P r.make.visit
  freeParts : FreeTs P (holes r.parts)
  shown : Q → r.accepted = true → ∀ e, FreeEnv P e → shownAs e r.make.visit = layout e r.parts
  good : ∀ all k ks ps, r = .union all k ks ps → r.accepted = true → ∃ v qs, r.make = .union v none all true qs ∧ qs ≠ [] ∧
    (∀ q ∈ qs, q.err = none ∧ FreeTs P q.visit) ∧
    (Q → ∀ e, FreeEnv P e → layout e (unionParts all (qs.map Stmt.visit)) = layout e r.parts)

theorem acceptedEach_iff (ps : List Ask) : acceptedEach ps = true ↔ ∀ p ∈ ps, p.accepted = true := by
  induction ps with
  | nil => simp [acceptedEach]
  | cons p ps ih => simp [acceptedEach, ih]

theorem accepted_union (all : Bool) (k : Key) (ks : Nat → Key) (ps : List Ask) :
    (Ask.union all k ks ps).accepted = acceptedAll all ps := by simp [Ask.accepted]

theorem holes_partsMore {P : Key → Prop} (all : Bool) (ps : List Ask) (h : ∀ p ∈ ps, FreeTs P (holes p.parts)) :
    FreeTs P (holes (partsMore all ps)) := by
  induction ps with
  | nil => intro k _; simp [partsMore, holes, dkeysL]
  | cons p ps ih =>
    intro k hk
    simp only [partsMore, unionWord, holes, holes_append, dkeysL_append, List.mem_append, not_or]
    exact ⟨h p (by simp) k hk, ih (fun q hq => h q (by simp [hq])) k hk⟩

theorem holes_partsEach {P : Key → Prop} (all : Bool) (ps : List Ask) (h : ∀ p ∈ ps, FreeTs P (holes p.parts)) :
    FreeTs P (holes (partsEach all ps)) := by
  cases ps with
  | nil => intro k _; simp [partsEach, holes, dkeysL]
  | cons p ps =>
    intro k hk
    simp only [partsEach, holes_append, dkeysL_append, List.mem_append, not_or]
    exact ⟨h p (by simp) k hk, holes_partsMore all ps (fun q hq => h q (by simp [hq])) k hk⟩

theorem more_shown {P : Key → Prop} {Q : Prop} (hQ : Q) (all : Bool) (ps : List Ask) (h : ∀ p ∈ ps, Asked P Q p) (ha : ∀ p ∈ ps, p.accepted = true)
    (e : Env) (he : FreeEnv P e) :
    layout e (moreParts all ((ps.map Ask.make).map Stmt.visit)) = layout e (partsMore all ps) := by
  induction ps generalizing e with
  | nil => simp [moreParts, partsMore]
  | cons p ps ih =>
    simp only [List.map_cons, moreParts, partsMore, unionWord, layout_cons_lit]
    rw [layout_append]
    have hp := (h p (by simp)).shown hQ (ha p (by simp)) e he
    unfold shownAs at hp
    have := ih (fun q hq => h q (by simp [hq])) (fun q hq => ha q (by simp [hq])) (layout e p.parts).2
      (he.layout _ (h p (by simp)).freeParts)
    simp only [layout, hp, this]

theorem each_shown {P : Key → Prop} {Q : Prop} (hQ : Q) (all : Bool) (ps : List Ask) (h : ∀ p ∈ ps, Asked P Q p) (ha : ∀ p ∈ ps, p.accepted = true)
    (e : Env) (he : FreeEnv P e) :
    layout e (unionParts all ((ps.map Ask.make).map Stmt.visit)) = layout e (partsEach all ps) := by
  cases ps with
  | nil => simp [unionParts, sepParts, partsEach]
  | cons p ps =>
    simp only [List.map_cons, unionParts_cons, partsEach]
    rw [layout_append]
    have hp := (h p (by simp)).shown hQ (ha p (by simp)) e he
    unfold shownAs at hp
    have := more_shown hQ all ps (fun q hq => h q (by simp [hq])) (fun q hq => ha q (by simp [hq])) (layout e p.parts).2
      (he.layout _ (h p (by simp)).freeParts)
    simp only [layout, hp, this]

/-- A call with an error. -/
theorem union_bad (k : Key) (ks : Nat → Key) (all : Bool) (qs : List Stmt) (h : qs.length < 2 ∨ ∃ q ∈ qs, q.err ≠ none) :
    ∃ e, unionQuery k ks all qs = .union [] (some e) false false [] := by
  match qs with
  | [] => exact ⟨_, rfl⟩
  | [q] => exact ⟨_, rfl⟩
  | q :: r :: rest =>
    rw [unionQuery]
    cases hf : firstErr ((q :: r :: rest).map Stmt.err) with
    | some e => exact ⟨e, rfl⟩
    | none =>
      rcases h with h | ⟨x, hx, hne⟩
      · simp only [List.length_cons] at h; omega
      · exact absurd ((firstErr_none_iff _).1 hf _ (List.mem_map_of_mem hx)) hne

theorem unionImpl_query (k : Key) (ks : Nat → Key) (all : Bool) (v : List Tree) (er : Option Err) (ret : Bool) (q : Stmt)
    (qs : List Stmt) : unionImpl k ks all (.query v er ret :: q :: qs) = unionQuery k ks all (.query v er ret :: q :: qs) := by
  unfold unionImpl
  rw [if_neg (by simp only [List.length_cons]; omega)]

theorem unionImpl_union (k : Key) (ks : Nat → Key) (all : Bool) (v : List Tree) (er : Option Err) (a n : Bool)
    (ss : List Stmt) (q : Stmt) (qs : List Stmt) : unionImpl k ks all (.union v er a n ss :: q :: qs) =
      if a ≠ all then .union [] (some (.site "cypher.go" 577)) false false []
      else if n then unionQuery k ks a (ss ++ q :: qs) else unionQuery k ks all (q :: qs) := by
  unfold unionImpl
  rw [if_neg (by simp only [List.length_cons]; omega)]

theorem make_union (all : Bool) (k : Key) (ks : Nat → Key) (ps : List Ask) :
    (Ask.union all k ks ps).make = unionImpl k ks all (ps.map Ask.make) := by
  rw [Ask.make]
  congr 1
  induction ps with
  | nil => rfl
  | cons p ps ih => rw [makeEach, ih, List.map_cons]

/-- `Union` and `UnionAll`. -/
theorem asked_union {P : Key → Prop} {Q : Prop} (all : Bool) (k : Key) (ks : Nat → Key) (ps : List Ask)
    (h : ∀ p ∈ ps, Asked P Q p) (hk : Q → P k) (hks : Q → ∀ i, P (ks i)) : Asked P Q (.union all k ks ps) := by
  have key : (acceptedAll all ps = false ∧ ∃ e, (Ask.union all k ks ps).make = .union [] (some e) false false []) ∨
      (acceptedAll all ps = true ∧ ∃ qs, (Ask.union all k ks ps).make = unionQuery k ks all qs ∧ 2 ≤ qs.length ∧
        (∀ q ∈ qs, q.err = none ∧ FreeTs P q.visit) ∧
        (Q → ∀ e, FreeEnv P e → layout e (unionParts all (qs.map Stmt.visit)) = layout e (partsKept all ps))) := by
    rw [make_union]
    match ps, h with
    | [], _ => exact Or.inl ⟨by simp [acceptedAll], _, rfl⟩
    | [p], _ => exact Or.inl ⟨by cases p <;> simp [acceptedAll], _, rfl⟩
    | p :: r :: rest, h =>
      have hrest : (∀ q ∈ r :: rest, q.accepted = true) → ∀ q ∈ (r :: rest).map Ask.make, q.err = none ∧ FreeTs P q.visit := by
        intro ha q hq
        obtain ⟨x, hx, rfl⟩ := List.mem_map.1 hq
        have := h x (by simp only [List.mem_cons] at hx ⊢; exact Or.inr hx)
        exact ⟨this.err.2 (ha x hx), this.free (ha x hx)⟩
      have hbad : acceptedEach (r :: rest) = false → ∃ q ∈ (r :: rest).map Ask.make, q.err ≠ none := by
        intro ha
        have : ¬ ∀ p ∈ r :: rest, p.accepted = true := by rw [← acceptedEach_iff, ha]; simp
        simp only [Classical.not_forall] at this
        obtain ⟨x, hx, hn⟩ := this
        exact ⟨x.make, List.mem_map_of_mem hx, fun he => hn ((h x (by simp only [List.mem_cons] at hx ⊢; exact Or.inr hx)).err.1 he)⟩
      have hp := h p (by simp)
      cases p with
      | query v er ret =>
        have hmk : (Ask.query v er ret).make = .query v er ret := by simp [Ask.make]
        simp only [List.map_cons, hmk, unionImpl_query]
        rw [← hmk, ← List.map_cons, ← List.map_cons]
        cases hacc : acceptedAll all (Ask.query v er ret :: r :: rest) with
        | false =>
          refine Or.inl ⟨rfl, union_bad _ _ _ _ (Or.inr ?_)⟩
          simp only [acceptedAll, List.isEmpty_cons, Bool.not_false, Bool.true_and, Bool.and_eq_false_iff] at hacc
          rcases hacc with hacc | hacc
          · obtain ⟨q, hq, hne⟩ := hbad hacc
            exact ⟨q, by simp only [List.map_cons, List.mem_cons] at hq ⊢; exact Or.inr hq, hne⟩
          · exact ⟨(Ask.query v er ret).make, by simp, by rw [hmk]; intro h0; simp only [Stmt.err] at h0; simp [h0] at hacc⟩
        | true =>
          simp only [acceptedAll, List.isEmpty_cons, Bool.not_false, Bool.true_and, Bool.and_eq_true] at hacc
          have hall : ∀ x ∈ Ask.query v er ret :: r :: rest, x.accepted = true := by
            intro x hx
            simp only [List.mem_cons] at hx
            rcases hx with rfl | hx
            · simpa [Ask.accepted] using hacc.2
            · exact (acceptedEach_iff _).1 hacc.1 x (by simpa using hx)
          refine Or.inr ⟨rfl, _, rfl, by simp, ?_, fun hQ e he => ?_⟩
          · intro q hq
            obtain ⟨x, hx, rfl⟩ := List.mem_map.1 hq
            exact ⟨(h x hx).err.2 (hall x hx), (h x hx).free (hall x hx)⟩
          · rw [each_shown hQ all _ h hall e he]
            simp [partsEach, partsKept, Ask.lost, Ask.isUnion]
      | union all' k' ks' qs' =>
        cases hin : acceptedAll all' qs' with
        | false =>
          have hin' : (Ask.union all' k' ks' qs').accepted = false := by rw [accepted_union]; exact hin
          obtain ⟨er, hmk⟩ := hp.bad rfl hin'
          simp only [List.map_cons, hmk, unionImpl_union]
          rw [← List.map_cons]
          cases all with
          | true =>
            refine Or.inl ⟨by simp [acceptedAll, hin], ?_⟩
            simp
          | false =>
            simp only [ne_eq, not_true_eq_false, if_false, Bool.false_eq_true]
            cases hacc : acceptedAll false (Ask.union all' k' ks' qs' :: r :: rest) with
            | false =>
              refine Or.inl ⟨rfl, union_bad _ _ _ _ ?_⟩
              simp only [acceptedAll, List.isEmpty_cons, Bool.not_false, Bool.true_and, Bool.and_eq_false_iff, hin,
                Bool.false_eq_true, if_false, decide_eq_false_iff_not] at hacc
              rcases hacc with hacc | hacc
              · exact Or.inr (hbad hacc)
              · exact Or.inl (by rw [List.length_map]; omega)
            | true =>
              simp only [acceptedAll, List.isEmpty_cons, Bool.not_false, Bool.true_and, Bool.and_eq_true, hin,
                Bool.false_eq_true, if_false, decide_eq_true_eq] at hacc
              have hall := (acceptedEach_iff _).1 hacc.1
              refine Or.inr ⟨rfl, _, rfl, by rw [List.length_map]; exact hacc.2, hrest hall, fun hQ e he => ?_⟩
              rw [each_shown hQ false _ (fun x hx => h x (by simp only [List.mem_cons] at hx ⊢; exact Or.inr hx)) hall e he]
              simp [partsKept, Ask.lost, Ask.isUnion, hin']
        | true =>
          have hin' : (Ask.union all' k' ks' qs').accepted = true := by rw [accepted_union]; exact hin
          obtain ⟨v, qs, hmk, hne, hqs, hlay⟩ := hp.good _ _ _ _ rfl hin'
          simp only [List.map_cons, hmk, unionImpl_union]
          rw [← List.map_cons]
          by_cases hal : all' = all
          · subst hal
            simp only [ne_eq, not_true_eq_false, if_false, if_true]
            cases hacc : acceptedAll all' (Ask.union all' k' ks' qs' :: r :: rest) with
            | false =>
              refine Or.inl ⟨rfl, union_bad _ _ _ _ (Or.inr ?_)⟩
              simp only [acceptedAll, List.isEmpty_cons, Bool.not_false, Bool.true_and, hin, if_true, beq_self_eq_true,
                Bool.and_true] at hacc
              obtain ⟨q, hq, hn⟩ := hbad hacc
              exact ⟨q, by simp only [List.mem_append]; exact Or.inr hq, hn⟩
            | true =>
              simp only [acceptedAll, List.isEmpty_cons, Bool.not_false, Bool.true_and, hin, if_true, beq_self_eq_true,
                Bool.and_true] at hacc
              have hall := (acceptedEach_iff _).1 hacc
              refine Or.inr ⟨rfl, _, rfl, ?_, ?_, fun hQ e he => ?_⟩
              · have : 0 < qs.length := List.length_pos_iff.2 hne
                simp; omega
              · intro q hq
                rcases List.mem_append.1 hq with hq | hq
                · exact hqs q hq
                · exact hrest hall q hq
              · rw [List.map_append, unionParts_append _ _ _ (by simpa using hne), layout_append, hlay hQ e he,
                  more_shown hQ all' _ (fun x hx => h x (by simp only [List.mem_cons] at hx ⊢; exact Or.inr hx)) hall _
                    (he.layout _ hp.freeParts), ← layout_append]
                simp [partsKept, Ask.lost, hin']
          · refine Or.inl ⟨?_, ?_⟩
            · have : (all' == all) = false := by simpa using hal
              simp [acceptedAll, hin, this]
            · simp [hal]
  have hparts : FreeTs P (holes (Ask.union all k ks ps).parts) := by
    simp only [Ask.parts]
    cases ps with
    | nil => intro k _; simp [partsKept, holes, dkeysL]
    | cons p ps =>
      simp only [partsKept]
      split
      · exact holes_partsEach all ps fun q hq => (h q (by simp [hq])).freeParts
      · have := holes_partsEach all (p :: ps) fun q hq => (h q hq).freeParts
        simpa only [partsEach] using this
  rcases key with ⟨ha, e, hm⟩ | ⟨ha, qs, hm, h2, hqs, hlay⟩
  · rw [← accepted_union all k ks] at ha
    refine ⟨?_, fun _ _ => ⟨e, hm⟩, fun h => absurd h (by simp [ha]), hparts, fun _ h => absurd h (by simp [ha]), ?_⟩
    · rw [hm, ha]; simp [Stmt.err]
    · intro _ _ _ _ _ h; exact absurd h (by simp [ha])
  · rw [← accepted_union all k ks] at ha
    obtain ⟨v, hv, hf, ht⟩ := union_made (P := P) k ks all qs h2 hqs
    rw [hv] at hm
    refine ⟨?_, fun _ h => absurd h (by simp [ha]), fun _ => ?_, hparts, fun hQ _ e he => ?_, ?_⟩
    · rw [hm, ha]; simp [Stmt.err]
    · rw [hm]; exact hf
    · rw [hm]
      have : (Ask.union all k ks ps).parts = partsKept all ps := by simp [Ask.parts]
      rw [this]
      exact (ht (hk hQ) (hks hQ) e he).trans (hlay hQ e he)
    · intro _ _ _ _ heq _
      injection heq with h1 _ _ _
      subst h1
      refine ⟨v, qs, hm, ?_, hqs, fun hQ e he => ?_⟩
      · intro h0; rw [h0] at h2; simp at h2
      · have : (Ask.union all k ks ps).parts = partsKept all ps := by simp [Ask.parts]
        rw [this]; exact hlay hQ e he

mutual
theorem asked {P : Key → Prop} {Q : Prop} (r : Ask) (hq : ∀ q ∈ r.queries, FreeTs P q) (hk : ∀ k, r.Owns k → Q → P k) : Asked P Q r := by
  match r with
  | .query v e ret =>
    have hv : FreeTs P v := hq v (by simp [Ask.queries])
    refine ⟨?_, fun h => absurd h (by simp [Ask.isUnion]), fun _ => ?_, ?_, fun _ _ en _ => ?_, ?_⟩
    · simp [Ask.make, Stmt.err, Ask.accepted]
    · simpa [Ask.make, Stmt.visit] using hv
    · simpa [Ask.parts, holes] using hv
    · simp [Ask.make, Stmt.visit, shownAs, Ask.parts, layout]
    · intro _ _ _ _ h; cases h
  | .union all k ks ps =>
    refine asked_union all k ks ps (askedL ps ?_ ?_) (hk k (by simp [Ask.Owns])) (fun hQ i => hk _ (by rw [Ask.Owns]; exact Or.inr (Or.inl ⟨i, rfl⟩)) hQ)
    · intro q h; exact hq q (by simpa [Ask.queries] using h)
    · intro j h; exact hk j (by simp [Ask.Owns, h])
theorem askedL {P : Key → Prop} {Q : Prop} (ps : List Ask) (hq : ∀ q ∈ queriesL ps, FreeTs P q) (hk : ∀ k, OwnsL ps k → Q → P k) :
    ∀ p ∈ ps, Asked P Q p := by
  match ps with
  | [] => simp
  | p :: ps =>
    have h1 := asked (Q := Q) p (fun q h => hq q (by simp [queriesL, h])) (fun k h => hk k (by simp [OwnsL, h]))
    intro x hx
    rcases List.mem_cons.1 hx with hx | hx
    · rw [hx]; exact h1
    · exact askedL ps (fun q h => hq q (by simp [queriesL, h])) (fun k h => hk k (by simp [OwnsL, h])) x hx
end

/-! ### C68 -/

/-- C68: exactly the requests described by `accepted` give a statement without an error. -/
theorem C68_accepted (r : Ask) : r.make.err = none ↔ r.accepted = true :=
  (asked (P := fun _ => False) (Q := False) r (fun _ _ _ h => h.elim) (fun _ _ h => h)).err

/-- C68: the text of an accepted request.  Nobody has given an alias to a union (this is not possible in Go, where a union is not an
expression). -/
theorem C68_text (r : Ask) (h : r.accepted = true) (e : Env)
    (hfree : ∀ k, r.Owns k → e.al k = none ∧ ∀ q ∈ r.queries, k ∉ dkeysL q) :
    shownAs e r.make.visit = layout e r.parts :=
  (asked (P := r.Owns) (Q := True) r (fun q hq k hk => (hfree k hk).2 q hq) (fun _ h _ => h)).shown trivial h e
    (fun k hk => (hfree k hk).1)

mutual
theorem uniform_accepted (all : Bool) (r : Ask) (h : r.Uniform all) : r.accepted = true := by
  match r with
  | .query v e ret => simp only [Ask.Uniform] at h; simp [Ask.accepted, h]
  | .union all' k ks ps =>
    simp only [Ask.Uniform] at h
    obtain ⟨rfl, h2, h3⟩ := h
    rw [accepted_union]
    match ps, h2, h3 with
    | p :: q :: ps, _, h3 =>
      have hp := uniform_accepted all' p h3.1
      have hr := uniform_each all' (q :: ps) h3.2
      cases p with
      | query v e ret => simpa [acceptedAll, hr, Ask.accepted] using hp
      | union a k' ks' qs =>
        have := h3.1
        simp only [Ask.Uniform] at this
        rw [accepted_union] at hp
        rw [this.1] at hp
        simp [acceptedAll, hr, hp, this.1]
theorem uniform_each (all : Bool) (ps : List Ask) (h : UniformL all ps) : acceptedEach ps = true := by
  match ps with
  | [] => simp [acceptedEach]
  | p :: ps => simp [acceptedEach, uniform_accepted all p h.1, uniform_each all ps h.2]
end

theorem queries_ne (all : Bool) (r : Ask) (h : r.Uniform all) : r.queries ≠ [] := by
  match r with
  | .query v e ret => simp [Ask.queries]
  | .union all' k ks (p :: ps) =>
    simp only [Ask.Uniform, UniformL] at h
    have := queries_ne all p h.2.2.1
    simp [Ask.queries, queriesL, this]
  | .union all' k ks [] => simp [Ask.Uniform] at h

mutual
theorem uniform_parts (all : Bool) (r : Ask) (h : r.Uniform all) : r.parts = unionParts all r.queries := by
  match r with
  | .query v e ret => simp [Ask.parts, Ask.queries, unionParts, sepParts]
  | .union all' k ks ps =>
    simp only [Ask.Uniform] at h
    obtain ⟨rfl, h2, h3⟩ := h
    match ps, h2, h3 with
    | p :: ps, _, h3 =>
      have hl : p.lost = false := by simp [Ask.lost, uniform_accepted all' p h3.1]
      simp only [Ask.parts, partsKept, hl, Bool.false_eq_true, if_false, Ask.queries, queriesL]
      rw [uniform_parts all' p h3.1, uniform_more all' ps h3.2, unionParts_append _ _ _ (queries_ne all' p h3.1)]
theorem uniform_more (all : Bool) (ps : List Ask) (h : UniformL all ps) : partsMore all ps = moreParts all (queriesL ps) := by
  match ps with
  | [] => simp [partsMore, queriesL, moreParts]
  | p :: ps =>
    simp only [partsMore, queriesL]
    rw [uniform_parts all p h.1, uniform_more all ps h.2, moreParts_append]
    have := queries_ne all p h.1
    cases hq : p.queries with
    | nil => exact absurd hq this
    | cons q qs => rw [unionParts_cons]; simp [moreParts]
end

/-- C68: if all unions are of one kind, then however they are nested the text is that of the union of all queries, in order. -/
theorem C68_uniform (all : Bool) (r : Ask) (h : r.Uniform all) (e : Env)
    (hfree : ∀ k, r.Owns k → e.al k = none ∧ ∀ q ∈ r.queries, k ∉ dkeysL q) :
    r.make.err = none ∧ shownAs e r.make.visit = layout e (unionParts all r.queries) := by
  have ha := uniform_accepted all r h
  exact ⟨(C68_accepted r).2 ha, by rw [C68_text r ha e hfree, uniform_parts all r h]⟩

namespace SampleUnion

def q (k : Key) (s : Str) : Ask := .query [.node ⟨k, .plain s [] false⟩ []] none true
def bad : Ask := .union false 90 (fun i => 91 + i) [q 1 c!"x"]

/-- `Union(Union(x, y), UnionAll(x, Union(y, z)), z)`. -/
def mixed : Ask := .union false 10 (fun i => 20 + i) [.union false 30 (fun i => 40 + i) [q 1 c!"x", q 2 c!"y"],
  .union true 50 (fun i => 60 + i) [q 1 c!"x", .union false 70 (fun i => 80 + i) [q 2 c!"y", q 3 c!"z"]], q 3 c!"z"]

example : mixed.accepted = true ∧ text mixed.make.visit = c!"x UNION y UNION x UNION ALL y UNION z UNION z" ∧
    (layout Env.empty mixed.parts).1 = c!"x UNION y UNION x UNION ALL y UNION z UNION z" := by decide +kernel

example : shownAs Env.empty mixed.make.visit = layout Env.empty mixed.parts := by
  refine C68_text mixed (by decide +kernel) _ fun k _ => ⟨rfl, ?_⟩
  simp [mixed, q, Ask.queries, queriesL, dkeysL, dkeys, Vis.asAlias]

/-- A first part that is not accepted is left out of a `UNION`, is an error in a `UNION ALL`, and an error elsewhere. -/
example : (Ask.union false 10 (fun i => 20 + i) [bad, q 2 c!"y", q 3 c!"z"]).accepted = true ∧
    (layout Env.empty (Ask.union false 10 (fun i => 20 + i) [bad, q 2 c!"y", q 3 c!"z"]).parts).1 = c!"y UNION z" ∧
    (Ask.union true 10 (fun i => 20 + i) [bad, q 2 c!"y", q 3 c!"z"]).accepted = false ∧
    (Ask.union false 10 (fun i => 20 + i) [bad, q 2 c!"y"]).accepted = false ∧
    (Ask.union false 10 (fun i => 20 + i) [q 2 c!"y", bad, q 3 c!"z"]).accepted = false ∧
    (Ask.union true 10 (fun i => 20 + i) [.union false 30 (fun i => 40 + i) [q 1 c!"x", q 2 c!"y"], q 3 c!"z"]).accepted = false := by
  decide +kernel

example : (Ask.union true 10 (fun i => 20 + i) [.union true 30 (fun i => 40 + i) [q 1 c!"x", q 2 c!"y"],
    .union true 50 (fun i => 60 + i) [q 1 c!"x", q 3 c!"z"]]).Uniform true := by
  simp [Ask.Uniform, UniformL, q]

end SampleUnion

end Verif
