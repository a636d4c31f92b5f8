import Verif.StmtSpec
import Verif.DenoteSpec
import Verif.BuilderSpec

/-
What patterns, clauses and statements built with the DSL are meant to be.

The memories of `Env` (RenderSpec.lean) are part of the meaning: after `x AS a`, an expression that contains `x` means the expression
with the variable `a` in its place; a named node that was described before is only referred to by its name.
-/

namespace Verif.Spec

variable (u : Unicode) (I : Meaning) (tight : Bool)

/-! ### Results -/

/-- What is returned. -/
inductive ItemMeans : Env → Val → RetItem I.D → Env → Prop
  | expr {e e' : Env} {v : Val} {d : I.D} {σ : CallKind} : ExprTo (Denotes u I tight) e v d σ e' → ItemMeans e v (.expr d none) e'
  | all {e : Env} : e.al 34 = none → ItemMeans e asterisk .all e
  | alias {e e' : Env} {v : Val} {d : I.D} {σ : CallKind} {k : Key} {a : Str} : ExprTo (Denotes u I tight) e v d σ e' → v.err = none → v.notNil = true → VarName u a →
      e.al k = none → e.al v.key = none →
      ItemMeans e (aliasedCreate u k (some v) a) (.expr d (some a))
        { e' with al := fun k' => if k' = v.key then some ⟨k, v.key, escapeIfNecessary u a⟩ else e'.al k' }

/-- An expression and a direction. -/
def SortMeans (e : Env) (r : SortReq) (x : I.D × Bool) (e' : Env) : Prop := (∃ σ, ExprTo (Denotes u I tight) e r.x x.1 σ e') ∧ x.2 = (r.dir = .desc : Bool)

/-- The body of RETURN and WITH. -/
structure BodyMeans (e : Env) (r : ResultReq) (b : Body I.D) (e' : Env) : Prop where
  distinct : b.distinct = r.distinct
  parts : ∃ e1, Thread (ItemMeans u I tight) e r.items b.items e1 ∧ Thread (SortMeans u I tight) e1 r.sorts b.order e'
  skip : b.skip = r.skip.map fun s => I.num s.n
  limit : b.limit = r.limit.map fun s => I.num s.n

/-- A condition, if there is one that is not empty. -/
def CondMeans (e : Env) : Option Calls → Option I.D → Env → Prop
  | some c, some d, e' => c.vacuous = false ∧ ∃ σ, ExprTo (Denotes u I tight) e c.build.toVal d σ e'
  | some c, none, e' => c.vacuous = true ∧ e' = e
  | none, none, e' => e' = e
  | none, some _, _ => False

/-! ### Changes -/

/-- Assignments: a property or variable and its new value; `Mutate` and `To`. -/
inductive SetMeans (e : Env) : SetArg → SetItem I.D → Prop
  | pair {a b : Val} {x y : I.D} {σ : CallKind} : ExprMeans (Denotes u I tight) e a x .atom → ExprMeans (Denotes u I tight) e b y σ → SetMeans e (.pair a b) (.assign x y)
  | to {k : Key} {a b : Val} {x y : I.D} {σ : CallKind} : Good a → Good b → ExprMeans (Denotes u I tight) e a x .atom → ExprMeans (Denotes u I tight) e b y σ →
      Unaliased e [k, Op.set.key] → SetMeans e (.built (operationCreate k (some a) .set (some b))) (.assign x y)
  | mutate {k : Key} {a b : Val} {x y : I.D} {σ : CallKind} : Good a → Good b → ExprMeans (Denotes u I tight) e a x .atom → ExprMeans (Denotes u I tight) e b y σ →
      Unaliased e [k, Op.mutate.key] → SetMeans e (.built (operationCreate k (some a) .mutate (some b))) (.add x y)

/-- What happens to a merged pattern. -/
def ActionMeans (e : Env) (a : ActionReq) (x : Bool × List (SetItem I.D)) : Prop :=
  x.1 = (a.type = .onCreate : Bool) ∧ List.Forall₂ (SetMeans u I tight e) (builtFirst a.args) x.2

/-- The results of a procedure. -/
inductive YieldMeans : Env → Val → Str × Option Str → Env → Prop
  | name {e : Env} {k : Key} {x : Str} : VarName u x → e.al k = none → YieldMeans e (symbolicName u k x) (x, none) e
  | alias {e : Env} {k ka : Key} {x a : Str} : VarName u x → VarName u a → e.al k = none → e.al ka = none →
      YieldMeans e (aliasedCreate u ka (some (symbolicName u k x)) a) (x, some a)
        { e with al := fun k' => if k' = k then some ⟨ka, k, escapeIfNecessary u a⟩ else e.al k' }

/-- The name of a procedure. -/
def ProcName (name : Str) (ws : List Str) : Prop := ws ≠ [] ∧ (∀ w ∈ ws, isIdentifier u w = true) ∧ name = join c!"." ws

/-- A procedure call. -/
inductive ProcMeans : Env → ProcReq → Clause I.D → Env → Prop
  | mk {e e' e'' : Env} {r : ProcReq} {ws : List Str} {ds : List I.D} {ys : List (Str × Option Str)} {c : Option I.D} : ProcName u r.name ws →
      List.Forall₂ (fun v d => ∃ σ, ExprMeans (Denotes u I tight) e v d σ) r.args ds → Thread (YieldMeans u) e r.yields ys e' → CondMeans u I tight e' r.cond c e'' →
      ProcMeans e r (.call ws ds ys c) e''

/-! ### Clauses and statements -/

/-- The clauses that contain no statement. -/
inductive ReqMeans : Env → Req → Clause I.D → Env → Prop
  | match_ {e e' e'' : Env} {k kw : Key} {o : Bool} {v : Val} {vs : List Val} {ps : List (Element I.D)} {w : Option WhereReq} {c : Option I.D} :
      Thread (ElementMeans u (Denotes u I tight)) e (v :: vs) ps e' → CondMeans u I tight e' (w.map WhereReq.whole) c e'' →
      ReqMeans e (.match_ k kw o (v :: vs) w) (.match_ o ps c) e''
  | with_ {e e' e'' : Env} {r : WithReq} {b : Body I.D} {c : Option I.D} : BodyMeans u I tight e (r.result u) b e' → CondMeans u I tight e' r.cond c e'' →
      ReqMeans e (.with_ r) (.with_ b c) e''
  | unwind {e e' : Env} {k kn : Key} {v : Val} {d : I.D} {σ : CallKind} {x : Str} : ExprTo (Denotes u I tight) e v d σ e' → VarName u x →
      isIdentifier u x = true → ReqMeans e (.unwind k kn v x) (.unwind d x) e'
  | create {e e' : Env} {ks : UpdKeys} {v : Val} {p : Element I.D} : ElementMeans u (Denotes u I tight) e v p e' → ReqMeans e (.create ks v) (.create [p]) e'
  | merge {e e' : Env} {ks : UpdKeys} {v : Val} {p : Element I.D} {as : List ActionReq} {xs : List (Bool × List (SetItem I.D))} :
      ElementMeans u (Denotes u I tight) e v p e' → (∀ a ∈ as, a.args ≠ []) → List.Forall₂ (ActionMeans u I tight e') as xs → ReqMeans e (.merge ks v as) (.merge p xs) e'
  | delete {e : Env} {ks : UpdKeys} {b : Bool} {a : Args} {ds : List I.D} : items u a ≠ [] →
      List.Forall₂ (fun v d => ∃ σ, ExprMeans (Denotes u I tight) e v d σ) (items u a) ds → ReqMeans e (.delete ks b a) (.delete b ds) e
  | set {e : Env} {ks : UpdKeys} {as : List SetArg} {xs : List (SetItem I.D)} : as ≠ [] → List.Forall₂ (SetMeans u I tight e) (builtFirst as) xs →
      ReqMeans e (.set ks as) (.set xs) e
  | setNamed {e : Env} {ks : UpdKeys} {n : NamedV} {v : Val} {x : SetItem I.D} : SetMeans u I tight e (.pair n.sym v) x → ReqMeans e (.setNamed ks n v) (.set [x]) e
  | setLabels {e : Env} {ks : UpdKeys} {guid : Str} {ko kl : Key} {kls : Nat → Key} {n : NodeV} {ls : List Str} {kn : Key} {x : Str} : n.name = some (kn, x) →
      VarName u x → ReqMeans e (.setLabels ks guid ko kl kls n ls) (.set [.labels x ls]) e
  | removeLabels {e : Env} {ks : UpdKeys} {guid : Str} {ko kl : Key} {kls : Nat → Key} {n : NodeV} {ls : List Str} {kn : Key} {x : Str} : n.name = some (kn, x) →
      VarName u x → ReqMeans e (.removeLabels ks guid ko kl kls n ls) (.remove [.labels x ls]) e
  | remove {e : Env} {ks : UpdKeys} {vs : List Val} {ds : List I.D} : vs ≠ [] → List.Forall₂ (fun v d => ExprMeans (Denotes u I tight) e v d .atom) vs ds →
      ReqMeans e (.remove ks vs) (.remove (ds.map .prop)) e
  | proc {e e' : Env} {r : ProcReq} {c : Clause I.D} : ProcMeans u I tight e r c e' → ReqMeans e (.proc r) c e'

/-- Parts of statements. -/
inductive Portion where
  | reqs (rs : List Req)
  | queries (qs : List Stmt)
  | stmt (s : Stmt)

/-- What they say. -/
inductive Says (D : Type) where
  | clauses (cs : List (Clause D))
  | queries (qs : List (List (Clause D)))
  | stat (s : Stat D)

inductive Means : Env → Portion → Says I.D → Env → Prop
  | nil {e : Env} : Means e (.reqs []) (.clauses []) e
  | clause {e e' e'' : Env} {r : Req} {rs : List Req} {c : Clause I.D} {cs : List (Clause I.D)} : ReqMeans u I tight e r c e' →
      Means e' (.reqs rs) (.clauses cs) e'' → Means e (.reqs (r :: rs)) (.clauses (c :: cs)) e''
  | sub {e e' e'' : Env} {k : Key} {s : Stmt} {st : Stat I.D} {rs : List Req} {cs : List (Clause I.D)} : Means e (.stmt s) (.stat st) e' →
      Means e' (.reqs rs) (.clauses cs) e'' → Means e (.reqs (.sub k s :: rs)) (.clauses (.sub st.first st.more :: cs)) e''
  -- a single query: perhaps a procedure call, clauses, perhaps RETURN
  | query {e e' e'' e''' : Env} {q : Query} {s : Stmt} {cs ds es : List (Clause I.D)} : q.Ok u → q.run u = .ok (.ok s) → NoAlias e (q.keys u) s.visit →
      Thread (ProcMeans u I tight) e q.call.toList cs e' → Means e' (.reqs q.reqs) (.clauses ds) e'' →
      Thread (fun e (r : RetReq) c e' => ∃ b, BodyMeans u I tight e (r.result u) b e' ∧ c = .return_ b) e'' q.ret.toList es e''' →
      Means e (.stmt s) (.stat ⟨cs ++ ds ++ es, []⟩) e'''
  -- the queries of a union
  | last {e : Env} : Means e (.queries []) (.queries []) e
  | more {e e' e'' : Env} {q : Stmt} {qs : List Stmt} {cs : List (Clause I.D)} {css : List (List (Clause I.D))} : Means e (.stmt q) (.stat ⟨cs, []⟩) e' →
      Means e' (.queries qs) (.queries css) e'' → Means e (.queries (q :: qs)) (.queries (cs :: css)) e''
  | union {e e' : Env} {k : Key} {ks : Nat → Key} {all : Bool} {qs : List Stmt} {cs : List (Clause I.D)} {css : List (List (Clause I.D))} :
      2 ≤ qs.length → (∀ q ∈ qs, q.single) → NoAlias e ([k] ++ (List.range qs.length).map ks) (unionImpl k ks all qs).visit →
      Means e (.queries qs) (.queries (cs :: css)) e' → Means e (.stmt (unionImpl k ks all qs)) (.stat ⟨cs, css.map fun c => (all, c)⟩) e'

end Verif.Spec
