import Verif.PropsSettle
import Verif.PropsClauses

/-
C65: SET with any arguments.
-/

namespace Verif
namespace Spec

/-- Expressions taken two by two. -/
def twoByTwo : List Val → List SetArg
  | a :: b :: rest => .pair a b :: twoByTwo rest
  | _ => []

/-- The assignments that SET makes of its arguments: the operations, then the others two by two. -/
def assignments (xs : List Val) : List SetArg := (xs.filter (·.isOperation)).map .built ++ twoByTwo (xs.filter fun x => !x.isOperation)

/-- The assignments as written: an operation stands for itself, any other argument is followed by its value. -/
def written : List Val → Option (List SetArg)
  | [] => some []
  | a :: rest =>
    if a.isOperation then (written rest).map (.built a :: ·)
    else match rest with
      | [] => none
      | b :: rest => (written rest).map (.pair a b :: ·)

/-- Arguments without errors. -/
def SetUsable (x : Val) : Prop := if x.isOperation then x.err = none ∧ One x.visit else Good x

end Spec
open Spec

section
variable {u : Unicode} {e : Env}

theorem even_two {xs : List Val} (h : xs.length % 2 = 0) : (twoByTwo xs).flatMap SetArg.args = xs := by
  match xs, h with
  | [], _ => rfl
  | [_], h => simp at h
  | a :: b :: rest, h =>
    have : rest.length % 2 = 0 := by simp only [List.length_cons] at h; omega
    simp [twoByTwo, SetArg.args, even_two this]

theorem two_length : ∀ xs : List Val, (twoByTwo xs).length = xs.length / 2
  | [] => rfl
  | [_] => by simp [twoByTwo]
  | a :: b :: rest => by simp [twoByTwo, two_length rest]; omega

theorem built_args (os : List Val) : (os.map SetArg.built).flatMap SetArg.args = os := by
  induction os with
  | nil => rfl
  | cons o os ih => simpa [SetArg.args] using ih

theorem assignments_args {xs : List Val} (h : (xs.filter fun x => !x.isOperation).length % 2 = 0) :
    (assignments xs).flatMap SetArg.args = xs.filter (·.isOperation) ++ xs.filter fun x => !x.isOperation := by
  rw [assignments, List.flatMap_append, built_args, even_two h]

theorem two_filter (xs : List Val) : (twoByTwo xs).filter (·.isBuilt) = [] ∧ (twoByTwo xs).filter (fun a => !a.isBuilt) = twoByTwo xs := by
  match xs with
  | [] => exact ⟨rfl, rfl⟩
  | [_] => exact ⟨rfl, rfl⟩
  | a :: b :: rest =>
    obtain ⟨h1, h2⟩ := two_filter rest
    exact ⟨by rw [twoByTwo, List.filter_cons_of_neg (by simp [SetArg.isBuilt]), h1], by rw [twoByTwo, List.filter_cons_of_pos (by simp [SetArg.isBuilt]), h2]⟩

theorem two_builtFirst (os xs : List Val) : builtFirst (os.map .built ++ twoByTwo xs) = os.map .built ++ twoByTwo xs := by
  have g1 : (os.map SetArg.built).filter (·.isBuilt) = os.map .built := by simp [List.filter_eq_self, SetArg.isBuilt]
  have g2 : (os.map SetArg.built).filter (fun a => !a.isBuilt) = [] := by simp [List.filter_eq_nil_iff, SetArg.isBuilt]
  rw [builtFirst, List.filter_append, List.filter_append, g1, g2, (two_filter xs).1, (two_filter xs).2]
  simp

theorem prepareSet_sorted (ks : Nat → Key) (xs : List Val) :
    prepareSet ks xs = prepareSet ks (xs.filter (·.isOperation) ++ xs.filter fun x => !x.isOperation) := by
  have h1 : (xs.filter (·.isOperation) ++ xs.filter fun x => !x.isOperation).filter (·.isOperation) = xs.filter (·.isOperation) := by
    simp [List.filter_append, List.filter_filter]
  have h2 : (xs.filter (·.isOperation) ++ xs.filter fun x => !x.isOperation).filter (fun x => !x.isOperation) = xs.filter fun x => !x.isOperation := by
    simp [List.filter_append, List.filter_filter]
  rw [prepareSet, prepareSet, h1, h2]

theorem two_mem {xs : List Val} {a : SetArg} (h : a ∈ twoByTwo xs) : ∃ x y, a = .pair x y ∧ x ∈ xs ∧ y ∈ xs := by
  match xs, h with
  | x :: y :: rest, h =>
    simp only [twoByTwo, List.mem_cons] at h
    rcases h with rfl | h
    · exact ⟨x, y, rfl, by simp, by simp⟩
    · obtain ⟨x', y', h1, h2, h3⟩ := two_mem h
      exact ⟨x', y', h1, by simp [h2], by simp [h3]⟩

theorem assignments_ok {xs : List Val} (h : ∀ x ∈ xs, SetUsable x) : ∀ a ∈ assignments xs, a.Ok := by
  intro a ha
  rcases List.mem_append.1 ha with ha | ha
  · obtain ⟨o, ho, rfl⟩ := List.mem_map.1 ha
    obtain ⟨h1, h2⟩ := List.mem_filter.1 ho
    have := h o h1
    rw [SetUsable, if_pos h2] at this
    exact ⟨this.1, this.2, h2⟩
  · obtain ⟨x, y, rfl, hx, hy⟩ := two_mem ha
    obtain ⟨x1, x2⟩ := List.mem_filter.1 hx
    obtain ⟨y1, y2⟩ := List.mem_filter.1 hy
    have gx := h x x1
    have gy := h y y1
    simp only [Bool.not_eq_true'] at x2 y2
    rw [SetUsable, x2] at gx
    rw [SetUsable, y2] at gy
    exact ⟨gx, gy, x2, y2⟩

/-! ### C65 -/

/-- C65: SET with any arguments that have no errors: it is refused exactly if the number of arguments that are not operations is odd, and otherwise its text is
that of the operations, then of the others two by two, separated by commas. -/
theorem C65_set (k kl : Key) (ks : Nat → Key) (xs : List Val) (h : ∀ x ∈ xs, SetUsable x) :
    ((xs.filter fun x => !x.isOperation).length % 2 = 1 → ∃ er, prepareSet ks xs = .error er) ∧
    ((xs.filter fun x => !x.isOperation).length % 2 = 0 → ∃ vs, prepareSet ks xs = .ok vs ∧ (updateClause k kl setKeyword vs).val.err = none ∧
      (NoAlias e ([k, kl, Op.set.key] ++ (List.range xs.length).map ks) (updateClause k kl setKeyword vs).val.visit →
        shownAs e (updateClause k kl setKeyword vs).val.visit = layout e (setParts (assignments xs)))) := by
  refine ⟨fun ho => (C37_odd ks xs).2 ho, fun he => ?_⟩
  obtain ⟨vs, h1, h2, h3⟩ := C37_set_partial (e := e) k kl ks (assignments xs) (assignments_ok h)
  rw [assignments_args he, ← prepareSet_sorted] at h1
  refine ⟨vs, h1, h2, fun ha => ?_⟩
  have hb : builtFirst (assignments xs) = assignments xs := two_builtFirst ..
  rw [hb] at h3
  refine h3 fun k' hk' => ha k' ?_
  have hlen : (assignments xs).length ≤ xs.length := by
    have h1 : ∀ ys : List Val, ys.length = (ys.filter (·.isOperation)).length + (ys.filter fun x => !x.isOperation).length := by
      intro ys
      induction ys with
      | nil => rfl
      | cons y ys ih => by_cases hy : y.isOperation = true <;> simp [hy] <;> omega
    have := h1 xs
    rw [assignments, List.length_append, List.length_map, two_length]
    omega
  simp only [List.mem_append, List.mem_map, List.mem_range] at hk' ⊢
  rcases hk' with hk' | ⟨i, hi, rfl⟩
  · exact .inl hk'
  · exact .inr ⟨i, by omega, rfl⟩

/-- C65: at any point of a chain of calls, `Set` with any arguments does what `Set` with the operations first does; the same for `Set` after `OnCreate` and `OnMatch`. -/
theorem C65_any_place (b : B) (ks : UpdKeys) (k kset kl : Key) (kas : Nat → Key) (xs : List Val) (h : ∀ x ∈ xs, x.err = none) :
    exec u b (.set ks xs) = exec u b (.set ks (xs.filter (·.isOperation) ++ xs.filter fun x => !x.isOperation)) ∧
    exec u b (.actionSet k kset kl kas xs) = exec u b (.actionSet k kset kl kas (xs.filter (·.isOperation) ++ xs.filter fun x => !x.isOperation)) := by
  have e1 : errsOf xs = none := (errsOf_none_iff _).2 h
  have e2 : errsOf (xs.filter (·.isOperation) ++ xs.filter fun x => !x.isOperation) = none := by
    refine (errsOf_none_iff _).2 fun v hv => ?_
    rcases List.mem_append.1 hv with hv | hv <;> exact h v (List.mem_filter.1 hv).1
  have hp := fun ks => prepareSet_sorted ks xs
  generalize (xs.filter (·.isOperation) ++ xs.filter fun x => !x.isOperation) = ys at e2 hp
  have hu : ∀ b : Base, b.updB .set ks xs = b.updB .set ks ys := fun b => by simp only [Base.updB, updBuilder, e1, e2, hp]
  have hb : ∀ b : Base, b.set ks xs = b.set ks ys := fun b => by simp only [Base.set, e1, e2, hu]
  have ha : ∀ a : ActionB, a.set k kset kl kas xs = a.set k kset kl kas ys := fun a => by simp only [ActionB.set, mergeAction, e1, e2, hp]
  constructor
  · cases b <;> simp only [exec, execBase, execWith, execRet, execUpd, execUnwind, execInCall, execStandalone, execAction, hu, hb]
  · cases b <;> simp only [exec, execBase, execWith, execRet, execUpd, execUnwind, execInCall, execStandalone, execAction, ha]

theorem written_args {xs : List Val} {as : List SetArg} (h : written xs = some as) : as.flatMap SetArg.args = xs := by
  induction xs using written.induct generalizing as with
  | case1 => cases h; rfl
  | case2 a rest ha ih =>
    rw [written.eq_def] at h
    simp only [ha, if_true, Option.map_eq_some_iff] at h
    obtain ⟨as', h1, rfl⟩ := h
    simp [SetArg.args, ih h1]
  | case3 a ha =>
    rw [written.eq_def] at h
    simp [ha] at h
  | case4 a ha b rest ih =>
    rw [written.eq_def] at h
    simp only [ha, Bool.false_eq_true, if_false, Option.map_eq_some_iff] at h
    obtain ⟨as', h1, rfl⟩ := h
    simp [SetArg.args, ih h1]

theorem written_plain {xs : List Val} (h : ∀ x ∈ xs, x.isOperation = false) {as : List SetArg} (hw : written xs = some as) : xs.length % 2 = 0 ∧ as = twoByTwo xs := by
  induction xs using twoByTwo.induct generalizing as with
  | case1 a b rest ih =>
    rw [written.eq_def] at hw
    simp only [h a (by simp), Bool.false_eq_true, if_false, Option.map_eq_some_iff] at hw
    obtain ⟨as', h1, rfl⟩ := hw
    obtain ⟨i1, rfl⟩ := ih (fun x hx => h x (by simp [hx])) h1
    exact ⟨by simp only [List.length_cons]; omega, rfl⟩
  | case2 xs hx =>
    match xs, hx with
    | [], _ => cases hw; exact ⟨rfl, rfl⟩
    | [a], _ =>
      rw [written.eq_def] at hw
      simp [h a (by simp)] at hw
    | a :: b :: rest, hx => exact absurd rfl (hx a b rest)

theorem written_append {os xs : List Val} (h : ∀ x ∈ os, x.isOperation = true) : written (os ++ xs) = (written xs).map (os.map SetArg.built ++ ·) := by
  induction os with
  | nil => simp
  | cons o os ih =>
    rw [List.cons_append, written.eq_def]
    simp only [h o (by simp), if_true]
    rw [ih fun x hx => h x (by simp [hx]), Option.map_map]
    rfl

/-- Operations in front. -/
theorem front_iff (xs : List Val) : (∀ pre a b post, xs = pre ++ a :: b :: post → b.isOperation = true → a.isOperation = true) ↔
    xs = xs.filter (·.isOperation) ++ xs.filter fun x => !x.isOperation := by
  induction xs with
  | nil => simp
  | cons x xs ih =>
    have hcons : (∀ pre a b post, x :: xs = pre ++ a :: b :: post → b.isOperation = true → a.isOperation = true) ↔
        (∀ b post, xs = b :: post → b.isOperation = true → x.isOperation = true) ∧ ∀ pre a b post, xs = pre ++ a :: b :: post → b.isOperation = true → a.isOperation = true := by
      constructor
      · exact fun h => ⟨fun b post hx => h [] x b post (by simp [hx]), fun pre a b post hx => h (x :: pre) a b post (by simp [hx])⟩
      · rintro ⟨h1, h2⟩ pre a b post hx
        cases pre with
        | nil => cases hx; exact h1 b post rfl
        | cons p pre => cases hx; exact h2 pre a b post rfl
    rw [hcons, ih]
    by_cases hx : x.isOperation = true
    · rw [List.filter_cons_of_pos hx, List.filter_cons_of_neg (by simp [hx])]
      simp [hx]
    · rw [List.filter_cons_of_neg hx, List.filter_cons_of_pos (by simpa using hx)]
      simp only [Bool.not_eq_true] at hx
      simp only [hx, Bool.false_eq_true, imp_false]
      constructor
      · rintro ⟨h1, h2⟩
        have : xs.filter (·.isOperation) = [] := by
          cases hf : xs.filter (·.isOperation) with
          | nil => rfl
          | cons o os =>
            rw [hf] at h2
            have := (List.mem_filter.1 (hf ▸ List.mem_cons_self : o ∈ xs.filter (·.isOperation))).2
            exact absurd this (h1 o _ h2)
        rw [this] at h2 ⊢
        rw [List.nil_append, ← List.nil_append (xs.filter fun x => !x.isOperation), ← h2]
      · intro h
        have : xs.filter (·.isOperation) = [] := by
          cases hf : xs.filter (·.isOperation) with
          | nil => rfl
          | cons o os =>
            rw [hf] at h
            have ho := (List.mem_filter.1 (hf ▸ List.mem_cons_self : o ∈ xs.filter (·.isOperation))).2
            injection h with h1 h2
            rw [← h1, hx] at ho
            cases ho
        refine ⟨fun b post hb ho => ?_, ?_⟩
        · subst hb
          rw [List.filter_cons_of_pos ho] at this
          cases this
        · rw [this] at h ⊢
          injection h

/-- C65: SET makes the assignments that were written, in this order, exactly if no operation follows an argument that is not one. -/
theorem C65_as_written (ks : Nat → Key) (xs : List Val) (as : List SetArg) (h : written xs = some as) :
    ((∃ vs, prepareSet ks xs = .ok vs) ∧ assignments xs = as) ↔ ∀ pre a b post, xs = pre ++ a :: b :: post → b.isOperation = true → a.isOperation = true := by
  have hacc : (∃ vs, prepareSet ks xs = .ok vs) ↔ (xs.filter fun x => !x.isOperation).length % 2 = 0 := by
    rw [prepareSet]
    by_cases h : (xs.filter (fun x => !x.isOperation)).length % 2 = 0 <;> simp [h]
  rw [hacc, front_iff]
  constructor
  · rintro ⟨h1, h2⟩
    rw [← assignments_args h1, h2, written_args h]
  · intro hx
    rw [hx, written_append (fun x hx => (List.mem_filter.1 hx).2), Option.map_eq_some_iff] at h
    obtain ⟨bs, h1, rfl⟩ := h
    obtain ⟨h2, rfl⟩ := written_plain (fun x hx => by simpa using (List.mem_filter.1 hx).2) h1
    exact ⟨h2, rfl⟩

end

/-! ### Concrete cases -/

namespace SampleClause

/-- `z.Mutate(y)` -/
def mutated : Val := operationCreate 7 (some z) .mutate (some y)
/-- `Set(x, z.Mutate(y), x.Add(1), y, z, x)` -/
def mixed : List Val := [x, mutated, plus, y, z, x]

end SampleClause
open SampleClause

example : ∀ v ∈ mixed, SetUsable v := by
  simp only [mixed, List.mem_cons, List.not_mem_nil, or_false, forall_eq_or_imp, forall_eq]
  exact ⟨⟨rfl, rfl⟩, ⟨rfl, _, _, rfl⟩, ⟨rfl, _, _, rfl⟩, ⟨rfl, rfl⟩, ⟨rfl, rfl⟩, ⟨rfl, rfl⟩⟩
example : (mixed.filter fun x => !x.isOperation).length % 2 = 0 ∧ setText mixed = some c!"SET z += y, (x + 1), x = y, z = x " := by decide +kernel
example : assignments mixed = [.built mutated, .built plus, .pair x y, .pair z x] := rfl
-- as written
example : written [mutated, x, y] = some [.built mutated, .pair x y] ∧ assignments [mutated, x, y] = [.built mutated, .pair x y] := ⟨rfl, rfl⟩
-- not as written
example : written [x, plus, y, plus] = some [.pair x plus, .pair y plus] ∧ assignments [x, plus, y, plus] = [.built plus, .built plus, .pair x y] := ⟨rfl, rfl⟩

end Verif
