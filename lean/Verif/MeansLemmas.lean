import Verif.MeansSpec
import Verif.PropsRead

/-
Expressions in statements are read with their meaning.
-/

namespace Verif.Rd

open Spec

variable {u : Unicode} {I : Meaning} {tight : Bool}

/-- What expressions mean is what they read as. -/
theorem denotes_good (v : Val) (d : I.D) (σ : CallKind) (h : Denotes u I tight v d σ) : Good' u I tight v d σ := h.good

theorem _root_.Verif.Spec.ExprTo.expr {e e' : Env} {v : Val} {d : I.D} {σ : CallKind} (h : ExprTo (Denotes u I tight) e v d σ e') :
    ∃ s ts, shownAs e v.visit = (s, e') ∧ Lexes u s ts ∧ Prefix I tight 0 ts d ∧ Head 0 ts ∧ e'.al = e.al := h.below denotes_good

theorem _root_.Verif.Spec.ExprMeans.reads {e : Env} {v : Val} {d : I.D} {σ : CallKind} (h : ExprMeans (Denotes u I tight) e v d σ) :
    ∃ s ts, shownAs e v.visit = (s, e) ∧ Lexes u s ts ∧ Prefix I tight (level σ) ts d ∧ Head (level σ) ts := by
  obtain ⟨s, ts, h1, h2, h3, h4, _⟩ := ExprTo.reads denotes_good h
  exact ⟨s, ts, h1, h2, h3, h4⟩

theorem _root_.Verif.Spec.ExprMeans.below {e : Env} {v : Val} {d : I.D} {σ : CallKind} (h : ExprMeans (Denotes u I tight) e v d σ) :
    ∃ s ts, shownAs e v.visit = (s, e) ∧ Lexes u s ts ∧ Prefix I tight 0 ts d ∧ Head 0 ts := by
  obtain ⟨s, ts, h1, h2, h3, h4, _⟩ := ExprTo.below denotes_good h
  exact ⟨s, ts, h1, h2, h3, h4⟩

end Verif.Rd
