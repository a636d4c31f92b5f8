import Verif.FrozenLemmas
import Verif.DenoteLemmas6
import Verif.StmtSpec

/-
Patterns are read with their meaning.
-/

namespace Verif.Rd

open Spec

variable {u : Unicode} {I : Meaning} {tight : Bool} {R : Val → I.D → CallKind → Prop}

/-! ### Tokens -/

/-- `s` has the tokens `ts`, whatever follows. -/
def LexesAny (u : Unicode) (s : Str) (ts : List Token) : Prop := ∀ r rs, Tokens u r rs → Tokens u (s ++ r) (ts ++ rs)

theorem LexesAny.append {s t : Str} {ts us : List Token} (h : LexesAny u s ts) (h' : LexesAny u t us) : LexesAny u (s ++ t) (ts ++ us) := by
  intro r rs hr
  rw [List.append_assoc, List.append_assoc]
  exact h _ _ (h' _ _ hr)

theorem LexesAny.lexes {s : Str} {ts : List Token} (h : LexesAny u s ts) : Lexes u s ts := fun r rs _ hr => h r rs hr

theorem LexesAny.nil : LexesAny u [] [] := fun _ _ h => h

theorem LexesAny.sym {c : Char} (hc : c ∈ symbols) (hd : c ≠ '/') : LexesAny u [c] [.sym c] :=
  fun _ _ h => Tokens.sym hc (fun h => absurd h hd) h

/-- A mark follows. -/
theorem Lexes.mark {s t : Str} {ts us : List Token} {c : Char} (h : Lexes u s ts) (hc : mark c = true) (h' : LexesAny u (c :: t) us) :
    LexesAny u (s ++ c :: t) (ts ++ us) := by
  intro r rs hr
  rw [List.append_assoc, List.append_assoc]
  exact h _ _ (Follow.mark hc _) (h' _ _ hr)

theorem Lexes.mark' {s t : Str} {ts us : List Token} {c : Char} (h : Lexes u s ts) (hc : Rd.mark c = true) (h' : Lexes u (c :: t) us) :
    Lexes u (s ++ c :: t) (ts ++ us) := by
  intro r rs hf hr
  rw [List.append_assoc, List.append_assoc]
  exact h _ _ (Follow.mark hc _) (h' _ _ hf hr)

theorem LexesAny.then {s t : Str} {ts us : List Token} (h : LexesAny u s ts) (h' : Lexes u t us) : Lexes u (s ++ t) (ts ++ us) := by
  intro r rs hf hr
  rw [List.append_assoc, List.append_assoc]
  exact h _ _ (h' _ _ hf hr)

theorem LexesAny.sp {s : Str} {ts : List Token} (h : LexesAny u s ts) : LexesAny u (' ' :: s) ts := fun r rs hr => Tokens.sp (h r rs hr)

theorem Lexes.sp {s : Str} {ts : List Token} (h : Lexes u s ts) : Lexes u (' ' :: s) ts := fun r rs hf hr => Tokens.sp (h r rs hf hr)

theorem LexesAny.blank : LexesAny u c!" " [] := fun _ _ hr => Tokens.sp hr

/-- A keyword and a blank. -/
theorem LexesAny.word {w : Str} (hw : (w != [] && w.all fun c => c.toNat < 128 && c.isAlpha) = true) : LexesAny u (w ++ c!" ") [.word w] := by
  intro r rs hr
  rw [List.append_assoc]
  exact Tokens.word (ascii_word hw) (Follow.mark (by decide) _).part (Tokens.sp hr)

/-! ### Names -/

theorem varOf_name {t : Token} {x : Str} (h : IsName t x) (hx : VarName u x) (r : List Token) : varOf (t :: r) = some (x, r) := by
  rcases h with rfl | rfl
  · simp [varOf, hx.2.1, hx.2.2]
  · rfl

theorem varOf_sym (c : Char) (r : List Token) : varOf (.sym c :: r) = none := rfl

theorem optName_reads {o : Option Str} (ho : ∀ s, o = some s → VarName u s) :
    ∃ ts, (∀ r rs, Follow u r → Tokens u r rs → Tokens u (nameTextOf u o ++ r) (ts ++ rs)) ∧ ∀ c r, optVar (ts ++ .sym c :: r) = (o, .sym c :: r) := by
  cases o with
  | none => exact ⟨[], fun r rs _ h => h, fun c r => rfl⟩
  | some x =>
    obtain ⟨t, h1, h2, _⟩ := Lexes.name (ho x rfl).1
    exact ⟨[t], h2, fun c r => by simp [optVar, varOf_name h1 (ho x rfl)]⟩

/-! ### Properties -/

theorem _root_.Verif.Spec.MapMeans.reads (hR : ∀ v d σ, R v d σ → Good' u I tight v d σ) {e : Env} {m : Val} {d : I.D} (h : MapMeans u R e m d) :
    ∃ s ts, shownAs e m.visit = (s, e) ∧ Lexes u s (.sym '{' :: ts) ∧ ∀ r, RA I tight (.sym '{' :: ts ++ r) d r := by
  obtain ⟨_, hs, k, ks, m', es, h1, h2, h3, h4, h5, h6, rfl⟩ := h
  obtain ⟨_, _, _, _, s, ts, t1, t2, t3⟩ := map_reads h1 (fun x hx w hw => hR _ _ _ (h2 x hx w hw)) h3 h4 h5
  exact ⟨s, ts, Prod.ext (shown_frozen (by rw [← h6]; exact t1)) hs, t2, t3⟩

def RProps (I : Meaning) (tight : Bool) (ts : List Token) (d : Option I.D) (r : List Token) : Prop := ∃ N, ∀ n ≥ N, readProps I tight n ts = some (d, r)

theorem props_reads (hR : ∀ v d σ, R v d σ → Good' u I tight v d σ) {e : Env} {m : Option Val} {d : Option I.D} (h : PropsMean u R e m d) :
    ∃ s ts, (∀ ps, layout e (propParts m ++ ps) = (s ++ (layout e ps).1, (layout e ps).2)) ∧
      (∀ c r rs, Rd.mark c = true → Tokens u (c :: r) rs → Tokens u (s ++ c :: r) (ts ++ rs)) ∧ (∀ c r, c ≠ '{' → RProps I tight (ts ++ .sym c :: r) d (.sym c :: r)) ∧
      (s = [] ∨ ∃ r, s = ' ' :: r) ∧ (ts = [] ∨ ∃ r, ts = .sym '{' :: r) := by
  cases m with
  | none =>
    cases d with
    | some _ => exact h.elim
    | none =>
      refine ⟨[], [], fun ps => rfl, fun c r rs _ h => h, fun c r hc => ⟨0, fun n _ => ?_⟩, .inl rfl, .inl rfl⟩
      simp [readProps, propsBy, hc]
  | some m =>
    cases d with
    | none => exact h.elim
    | some d =>
      obtain ⟨s, ts, h1, h2, h3⟩ := MapMeans.reads hR h
      refine ⟨' ' :: s, .sym '{' :: ts, fun ps => ?_, fun c r rs hc hr => Tokens.sp (h2 _ _ (Follow.mark hc _) hr), fun c r _ => ?_, .inr ⟨_, rfl⟩, .inr ⟨_, rfl⟩⟩
      · simp only [propParts, List.cons_append, List.nil_append, layout]
        unfold shownAs at h1
        rw [h1]
      · obtain ⟨N, hN⟩ := h3 (.sym c :: r)
        exact ⟨N, fun n hn => by simp [readProps, propsBy] ; rw [show Token.sym '{' :: (ts ++ Token.sym c :: r) = .sym '{' :: ts ++ .sym c :: r from rfl, hN n hn]⟩

theorem propsVisit_settled {e : Env} {m : Option Val} {o : Option (Key × Val)} {d : Option I.D} (h : PropsMean u R e m d) (ho : o.map (·.2) = m) :
    Settled e (propsVisit o) := by
  rcases o with _ | ⟨k, v⟩
  · exact Settled.nil
  · subst ho
    cases d with
    | none => exact h.elim
    | some d => exact Settled.cons rfl h.1 Settled.nil

/-! ### Nodes -/

def RNode (I : Meaning) (tight : Bool) (ts : List Token) (d : NodePat I.D) (r : List Token) : Prop := ∃ N, ∀ n ≥ N, readNode I tight n ts = some (d, r)

theorem labelsOf_sym {ls : List Str} {c : Char} (hc : c ≠ ':') (r : List Token) :
    labelsOf ((ls.flatMap fun l => [.sym ':', .quoted l]) ++ .sym c :: r) = (ls, .sym c :: r) := labelsOf_quoted ls (by simpa using hc)

theorem nameLabels_lexes {o : Option Str} {ts : List Token} (ls : List Str)
    (h : ∀ r rs, Follow u r → Tokens u r rs → Tokens u (nameTextOf u o ++ r) (ts ++ rs)) {r : Str} {rs : List Token} (hf : Follow u r) (hr : Tokens u r rs) :
    Tokens u (nameTextOf u o ++ (ls.flatMap fun t => ':' :: escapeName t) ++ r) (ts ++ (ls.flatMap fun l => [.sym ':', .quoted l]) ++ rs) := by
  rw [List.append_assoc, List.append_assoc]
  refine h _ _ ?_ (labels_lexes ls hf hr)
  cases ls with
  | nil => exact hf
  | cons l ls => exact Follow.mark (by decide) _

theorem labels_settled (e : Env) (ls : List (Key × Str)) : Settled e (ls.map labelVisit) := by
  induction ls with
  | nil => exact Settled.nil
  | cons l ls ih => exact Settled.cons rfl Settled.nil ih

theorem name_settled (e : Env) (o : Option (Key × Str)) : Settled e (nameVisit u o) := by
  rcases o with _ | ⟨k, s⟩
  · exact Settled.nil
  · exact Settled.cons rfl Settled.nil Settled.nil

theorem node_reads (hR : ∀ v d σ, R v d σ → Good' u I tight v d σ) {e e' : Env} {n : NodeV} {p : NodePat I.D} (h : NodeMeans u R e n p e') :
    ∃ s ts, shownAs e (n.visit u) = (s, e') ∧ LexesAny u s (.sym '(' :: ts) ∧ (∀ r, RNode I tight (.sym '(' :: ts ++ r) p r) ∧ e'.al = e.al ∧
      Settled e (n.visit u) ∧ n.err = none ∧ ∃ r, s = '(' :: r := by
  cases h with
  | @described d pp h1 h2 h3 h4 h5 =>
    have inv := nodeInv_desc h1
    have hal : (Spec.mark e d.run.key d.head.name).al = e.al := by unfold Spec.mark; split <;> rfl
    have hp : d.run.props.map (·.2) = d.props := inv.props
    have hs : Settled e (d.run.visit u) := by
      refine Settled.cons rfl ?_ Settled.nil
      exact Settled.append.mpr ⟨Settled.append.mpr ⟨name_settled _ _, labels_settled _ _⟩, (propsVisit_settled h3 hp).congr hal⟩
    have hname : d.run.name.map (·.2) = d.head.name := inv.name
    have hl : (d.run.labels.map (·.2)).filter (· ≠ []) = d.head.labels := by
      rw [inv.labels]
      apply List.filter_eq_self.mpr
      intro l hl
      have := h1.1.1
      simp only [ne_eq, decide_eq_true_eq]
      rintro rfl
      exact this hl
    have hshow := node_shown (hs.noAlias h4) (n := d.run) (h5.imp (fun h5 => by rw [h5] at hname; simpa using hname) id)
    rw [hname, hl, hp] at hshow
    obtain ⟨s, ts, p1, p2, p3, p4, p5⟩ := props_reads hR h3
    obtain ⟨nt, n1, n2⟩ := optName_reads h2
    have p1' := p1 [.lit c!")"]
    refine ⟨c!"(" ++ (nameTextOf u d.head.name ++ (d.head.labels.flatMap fun t => ':' :: escapeName t)) ++ (s ++ c!")"), nt ++ (d.head.labels.flatMap fun l => [.sym ':', .quoted l]) ++ ts ++ [.sym ')'], hshow.trans ?_, ?_, ?_, hal, hs, inv.err, ?_⟩
    · simp only [List.cons_append, List.nil_append, layout, p1']
    · intro r rs hr
      have e1 : c!"(" ++ (nameTextOf u d.head.name ++ (d.head.labels.flatMap fun t => ':' :: escapeName t)) ++ (s ++ c!")") ++ r =
          '(' :: ((nameTextOf u d.head.name ++ (d.head.labels.flatMap fun t => ':' :: escapeName t)) ++ (s ++ ')' :: r)) := by simp
      rw [e1]
      have e2 : Token.sym '(' :: (nt ++ (d.head.labels.flatMap fun l => [Token.sym ':', .quoted l]) ++ ts ++ [.sym ')']) ++ rs =
          .sym '(' :: (nt ++ (d.head.labels.flatMap fun l => [Token.sym ':', .quoted l]) ++ (ts ++ .sym ')' :: rs)) := by simp
      rw [e2]
      refine Tokens.sym (by simp [symbols]) (by simp) (nameLabels_lexes _ n1 ?_ (p2 _ _ _ (by decide) (Tokens.sym (by simp [symbols]) (by simp) hr)))
      rcases p4 with rfl | ⟨x, rfl⟩
      · exact Follow.mark (by decide) _
      · exact Follow.mark (by decide) _
    · intro r
      obtain ⟨N, hN⟩ := p3 ')' r (by decide)
      refine ⟨N, fun n hn => ?_⟩
      have hx : ∃ c r', (d.head.labels.flatMap fun l => [Token.sym ':', .quoted l]) ++ (ts ++ .sym ')' :: r) = .sym c :: r' := by
        cases d.head.labels with
        | nil => rcases p5 with rfl | ⟨x, rfl⟩ <;> exact ⟨_, _, rfl⟩
        | cons l ls => exact ⟨_, _, rfl⟩
      have hy : ∃ c r', ts ++ .sym ')' :: r = .sym c :: r' ∧ c ≠ ':' := by
        rcases p5 with rfl | ⟨x, rfl⟩
        · exact ⟨_, _, rfl, by decide⟩
        · exact ⟨_, _, rfl, by decide⟩
      obtain ⟨c, r', hc⟩ := hx
      obtain ⟨c', r'', hc', hc''⟩ := hy
      have e2 : Token.sym '(' :: (nt ++ (d.head.labels.flatMap fun l => [Token.sym ':', .quoted l]) ++ ts ++ [.sym ')']) ++ r =
          .sym '(' :: (nt ++ ((d.head.labels.flatMap fun l => [Token.sym ':', .quoted l]) ++ (ts ++ .sym ')' :: r))) := by simp
      rw [e2]
      simp only [readNode, nodeBy]
      rw [hc, n2 c r', ← hc, hc']
      simp only [labelsOf_sym hc'']
      have hN' := hN n hn
      simp only [readProps] at hN'
      rw [← hc', hN']
      rfl
    · exact ⟨_, rfl⟩
  | @known _ kn s h1 h2 h3 h4 h5 h6 h7 h8 =>
    have hs := h7
    have hm : muteL e (nameVisit u n.name ++ n.labels.map labelVisit ++ propsVisit n.props) = ([], e) := by
      have := muteL_settled (h7.node.2.1)
      exact Prod.ext (muteL_noRaw _ _ h8.1) this
    refine ⟨'(' :: (s ++ c!")"), [.word s, .sym ')'], ?_, ?_, ?_, rfl, hs, h1, _, rfl⟩
    · unfold shownAs NodeV.visit
      simp only [denL, den, shown, h5, h2, Option.map_some, h6, if_true]
      rw [← h2, hm]
      simp [sepText, defined, Vis.asAlias]
    · intro r rs hr
      have : '(' :: (s ++ c!")") ++ r = '(' :: (s ++ ')' :: r) := by simp
      rw [this]
      exact Tokens.sym (by simp [symbols]) (by simp) (Tokens.ident h4 (Follow.mark (by decide) _).part (Tokens.sym (by simp [symbols]) (by simp) hr))
    · intro r
      refine ⟨0, fun n _ => ?_⟩
      simp only [List.cons_append, List.nil_append, readNode, nodeBy, optVar, varOf_name (.inl rfl) h3]
      have : labelsOf (Token.sym ')' :: r) = ([], .sym ')' :: r) := labelsOf_sym (ls := []) (by decide) r
      simp [this, propsBy]

end Verif.Rd
