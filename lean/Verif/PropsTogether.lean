import Verif.PropsRender

/-
C83: calls of `Render` that are under way at the same time (in several goroutines).
-/

namespace Verif.Spec

/-- A call of `Render`: which renderer it is called on, and the statement (`none` is nil). -/
structure RenderCall where
  on : Nat
  stmt : Option Statement

/-- What a call does to its renderer: nothing for nil and for a statement with an error (cypher_renderer.go:43-48). -/
def RenderCall.events (c : RenderCall) : List Event :=
  match c.stmt with
  | none => []
  | some st => match st.err with
    | some _ => []
    | none => acceptL st.visit

/-- Renderers and calls under way.  `Render` works on a copy of the renderer (cypher_renderer.go:42): stacks, level, flag and output belong to
the call; the maps are references and belong to the renderer.  Calls and renderers are numbered. -/
structure World where
  /-- the renderers; only their maps change -/
  rend : Nat → RState
  /-- the copies that the calls work on; their maps are those of the renderer -/
  copy : Nat → RState
  /-- what the calls still have to do -/
  todo : Nat → List Event

/-- A renderer with the maps of another. -/
def RState.withMaps (s m : RState) : RState := { s with al := m.al, seps := m.seps, vis := m.vis }

/-- `f` with another value in one place. -/
def put {α : Type} (f : Nat → α) (i : Nat) (a : α) : Nat → α := fun j => if j = i then a else f j

/-- All the calls have begun and none has done anything. -/
def World.start (rend : Nat → RState) (calls : Nat → RenderCall) : World :=
  ⟨rend, fun i => rend (calls i).on, fun i => (calls i).events⟩

/-- Call `i` does one thing. -/
def World.turn (calls : Nat → RenderCall) (w : World) (i : Nat) : World :=
  match w.todo i with
  | [] => w
  | e :: es =>
    let s := (RState.withMaps (w.copy i) (w.rend (calls i).on)).step e
    ⟨put w.rend (calls i).on (RState.withMaps (w.rend (calls i).on) s), put w.copy i s, put w.todo i es⟩

/-- The calls take turns as the schedule says. -/
def World.turns (calls : Nat → RenderCall) (w : World) (schedule : List Nat) : World := schedule.foldl (World.turn calls) w

/-- What call `i` returns. -/
def World.result (u : Unicode) (calls : Nat → RenderCall) (w : World) (i : Nat) : Except Err Str :=
  match (calls i).stmt with
  | none => .error .nilStatement
  | some st => match st.err with
    | some e => .error e
    | none => .ok (trimSpace u (w.copy i).out)

/-- The results of calls of `Render` on one renderer, one after the other. -/
def renders (u : Unicode) (r : RState) : List (Option Statement) → List (Except Err Str)
  | [] => []
  | st :: sts => (render u r st).1 :: renders u (render u r st).2 sts

end Verif.Spec

namespace Verif
open Spec

variable {u : Unicode} {calls : Nat → RenderCall}

theorem put_self {α : Type} (f : Nat → α) (i : Nat) (a : α) : put f i a i = a := by simp [put]
theorem put_other {α : Type} (f : Nat → α) {i j : Nat} (a : α) (h : j ≠ i) : put f i a j = f j := by simp [put, h]

/-- Two worlds look the same to the renderer `ρ` and to its calls. -/
structure SameFor (calls : Nat → RenderCall) (ρ : Nat) (w w' : World) : Prop where
  rend : w.rend ρ = w'.rend ρ
  copy : ∀ i, (calls i).on = ρ → w.copy i = w'.copy i
  todo : ∀ i, (calls i).on = ρ → w.todo i = w'.todo i

theorem turn_same {ρ : Nat} {w w' : World} (h : SameFor calls ρ w w') {i : Nat} (hi : (calls i).on = ρ) :
    SameFor calls ρ (w.turn calls i) (w'.turn calls i) := by
  unfold World.turn
  rw [h.todo i hi]
  cases w'.todo i with
  | nil => exact h
  | cons e es =>
    simp only [hi, h.rend, h.copy i hi]
    refine ⟨by simp [put_self], fun j hj => ?_, fun j hj => ?_⟩ <;> by_cases hji : j = i <;> simp [put, hji, h.copy, h.todo, hj]

theorem turn_other {ρ : Nat} (w : World) {i : Nat} (hi : (calls i).on ≠ ρ) : SameFor calls ρ (w.turn calls i) w := by
  unfold World.turn
  cases w.todo i with
  | nil => exact ⟨rfl, fun _ _ => rfl, fun _ _ => rfl⟩
  | cons e es =>
    have hne : ∀ j, (calls j).on = ρ → j ≠ i := fun j hj h => hi (h ▸ hj)
    exact ⟨by simp [put, Ne.symm hi], fun j hj => put_other _ _ (hne j hj), fun j hj => put_other _ _ (hne j hj)⟩

theorem SameFor.trans {ρ : Nat} {a b c : World} (h : SameFor calls ρ a b) (g : SameFor calls ρ b c) : SameFor calls ρ a c :=
  ⟨h.rend.trans g.rend, fun i hi => (h.copy i hi).trans (g.copy i hi), fun i hi => (h.todo i hi).trans (g.todo i hi)⟩

/-- Only the turns of its own calls matter to a renderer. -/
theorem turns_filter (ρ : Nat) (schedule : List Nat) {w w' : World} (h : SameFor calls ρ w w') :
    SameFor calls ρ (w.turns calls schedule) (w'.turns calls (schedule.filter fun i => (calls i).on == ρ)) := by
  induction schedule generalizing w w' with
  | nil => exact h
  | cons i rest ih =>
    by_cases hi : (calls i).on = ρ
    · simpa [World.turns, hi] using ih (turn_same h hi)
    · simpa [World.turns, hi] using ih ((turn_other w hi).trans h)

theorem withMaps_self (s : RState) : RState.withMaps s s = s := rfl
theorem withMaps_again (s m n : RState) : RState.withMaps (RState.withMaps s m) n = RState.withMaps s n := rfl
theorem withMaps_of (s m : RState) : RState.withMaps s (RState.withMaps m s) = s := rfl

/-- A call that does all it has to do without interruption. -/
theorem block (i : Nat) (es : List Event) {w : World} (hw : w.todo i = es) :
    let w' := w.turns calls (List.replicate es.length i)
    let s := (RState.withMaps (w.copy i) (w.rend (calls i).on)).run es
    RState.withMaps (w'.copy i) (w'.rend (calls i).on) = s ∧ w'.rend (calls i).on = RState.withMaps (w.rend (calls i).on) s ∧ w'.todo i = [] ∧
      ∀ j, j ≠ i → w'.copy j = w.copy j ∧ w'.todo j = w.todo j := by
  induction es generalizing w with
  | nil => exact ⟨rfl, rfl, hw, fun _ _ => ⟨rfl, rfl⟩⟩
  | cons e es ih =>
    have h1 : w.turn calls i = ⟨put w.rend (calls i).on (RState.withMaps (w.rend (calls i).on) ((RState.withMaps (w.copy i) (w.rend (calls i).on)).step e)),
        put w.copy i ((RState.withMaps (w.copy i) (w.rend (calls i).on)).step e), put w.todo i es⟩ := by
      unfold World.turn
      rw [hw]
    obtain ⟨g1, g2, g3, g4⟩ := ih (w := w.turn calls i) (by rw [h1]; exact put_self _ _ _)
    have h2 : w.turns calls (List.replicate (e :: es).length i) = (w.turn calls i).turns calls (List.replicate es.length i) := rfl
    rw [h2]
    have h3 : RState.withMaps ((w.turn calls i).copy i) ((w.turn calls i).rend (calls i).on) = (RState.withMaps (w.copy i) (w.rend (calls i).on)).step e := by
      rw [h1]
      simp only [put_self]
      rfl
    rw [h3] at g1 g2
    refine ⟨g1, g2.trans ?_, g3, fun j hj => ⟨(g4 j hj).1.trans ?_, (g4 j hj).2.trans ?_⟩⟩
    · rw [h1]
      simp only [put_self]
      rfl
    · rw [h1]; exact put_other _ _ hj
    · rw [h1]; exact put_other _ _ hj

/-- Nothing happens in turns of a call that has finished. -/
theorem idle_turns (i n : Nat) {w : World} (hw : w.todo i = []) : w.turns calls (List.replicate n i) = w := by
  induction n with
  | zero => rfl
  | succ n ih =>
    have : w.turn calls i = w := by unfold World.turn; rw [hw]
    simpa [World.turns, List.replicate_succ, this] using ih

theorem turns_append (w : World) (a b : List Nat) : w.turns calls (a ++ b) = (w.turns calls a).turns calls b := List.foldl_append

theorem render_events (u : Unicode) (r : RState) (c : RenderCall) : (render u r c.stmt).2 = RState.withMaps r (r.run c.events) := by
  unfold render RenderCall.events
  cases c.stmt with
  | none => rfl
  | some st => simp only; cases st.err <;> rfl

theorem result_render (r : RState) {i : Nat} {w : World} (h : (w.copy i).out = (r.run (calls i).events).out) :
    w.result u calls i = (render u r (calls i).stmt).1 := by
  unfold render World.result
  unfold RenderCall.events at h
  cases hc : (calls i).stmt with
  | none => rfl
  | some st =>
    rw [hc] at h
    cases he : st.err with
    | some e => simp [he]
    | none => simp only [he] at h ⊢; rw [h]

/-- The calls of one renderer, one after the other. -/
theorem blocks (u : Unicode) (ρ : Nat) (ks : List Nat) (hn : ks.Nodup) (hk : ∀ k ∈ ks, (calls k).on = ρ) {w : World}
    (hw : ∀ k ∈ ks, w.todo k = (calls k).events ∧ ∀ m, RState.withMaps (w.copy k) m = RState.withMaps (w.rend ρ) m) :
    let w' := w.turns calls (ks.flatMap fun k => List.replicate (calls k).events.length k)
    ks.map (fun k => w'.result u calls k) = renders u (w.rend ρ) (ks.map fun k => (calls k).stmt) ∧ ∀ j, j ∉ ks → w'.copy j = w.copy j := by
  induction ks generalizing w with
  | nil => exact ⟨rfl, fun _ _ => rfl⟩
  | cons k ks ih =>
    obtain ⟨hkn, hn'⟩ := List.nodup_cons.mp hn
    have hkr := hk k (by simp)
    obtain ⟨h1, h2⟩ := hw k (by simp)
    obtain ⟨g1, g2, _, g4⟩ := block (calls := calls) k _ h1
    rw [hkr] at g1 g2
    have hr : RState.withMaps (w.copy k) (w.rend ρ) = w.rend ρ := (h2 _).trans (withMaps_self _)
    rw [hr] at g1 g2
    simp only [List.flatMap_cons, turns_append]
    generalize hw1 : w.turns calls (List.replicate (calls k).events.length k) = w1 at g1 g2 g4 ⊢
    obtain ⟨f1, f2⟩ := ih hn' (fun j hj => hk j (List.mem_cons_of_mem _ hj)) (w := w1) fun j hj => by
      have hjk : j ≠ k := fun h => hkn (h ▸ hj)
      obtain ⟨a, b⟩ := hw j (List.mem_cons_of_mem _ hj)
      exact ⟨(g4 j hjk).2.trans a, fun m => by rw [(g4 j hjk).1, b m, g2]; rfl⟩
    refine ⟨?_, fun j hj => ?_⟩
    · simp only [List.map_cons, renders]
      rw [f1, render_events, ← g2]
      congr 1
      apply result_render
      rw [f2 k hkn]
      have := congrArg RState.out g1
      exact this
    · rw [List.mem_cons, not_or] at hj
      exact (f2 j hj.2).trans (g4 j hj.1).1

/-! ### C83 Rendering at the same time -/

/-- C83: whatever else happens at the same time, calls on one renderer that follow one after the other give what they give on their own. -/
theorem C83_in_turn (u : Unicode) (rend : Nat → RState) (calls : Nat → RenderCall) (schedule : List Nat) (ρ : Nat) (ks : List Nat) (hn : ks.Nodup)
    (hs : (schedule.filter fun i => (calls i).on == ρ) = ks.flatMap fun k => List.replicate (calls k).events.length k)
    (hk : ∀ k ∈ ks, (calls k).on = ρ) :
    ks.map (((World.start rend calls).turns calls schedule).result u calls) = renders u (rend ρ) (ks.map fun k => (calls k).stmt) := by
  have h := turns_filter (calls := calls) ρ schedule (w := World.start rend calls) (w' := World.start rend calls) ⟨rfl, fun _ _ => rfl, fun _ _ => rfl⟩
  rw [hs] at h
  refine Eq.trans (List.map_congr_left fun k hkk => ?_) (blocks (calls := calls) u ρ ks hn hk (w := World.start rend calls) fun k hkk =>
    ⟨rfl, fun m => by simp only [World.start, hk k hkk]⟩).1
  unfold World.result
  rw [h.copy k (hk k hkk)]

/-- C83: a call on a renderer that no other call uses gives what it gives on its own, whatever else happens at the same time. -/
theorem C83_apart (u : Unicode) (rend : Nat → RState) (calls : Nat → RenderCall) (schedule : List Nat) (i : Nat)
    (ha : ∀ j ∈ schedule, (calls j).on = (calls i).on → j = i) (hd : (calls i).events.length ≤ schedule.count i) :
    ((World.start rend calls).turns calls schedule).result u calls i = (render u (rend (calls i).on) (calls i).stmt).1 := by
  have h := turns_filter (calls := calls) (calls i).on schedule (w := World.start rend calls) (w' := World.start rend calls)
    ⟨rfl, fun _ _ => rfl, fun _ _ => rfl⟩
  have hf : (schedule.filter fun j => (calls j).on == (calls i).on) = List.replicate (schedule.count i) i := by
    rw [← List.filter_eq]
    refine List.filter_congr fun j hj => ?_
    by_cases hji : j = i
    · simp [hji]
    · have : (calls j).on ≠ (calls i).on := fun g => hji (ha j hj g)
      simp [hji, this]
  obtain ⟨n, hn⟩ := Nat.exists_eq_add_of_le hd
  rw [hf, hn, ← List.replicate_append_replicate, turns_append] at h
  obtain ⟨g1, _, g3, _⟩ := block (calls := calls) i (calls i).events (w := World.start rend calls) rfl
  rw [idle_turns i n g3] at h
  apply result_render
  rw [h.copy i rfl]
  have := congrArg RState.out g1
  exact this

/-- C83: so with new renderers, one for each call, every call returns the text of its statement. -/
theorem C83_new (u : Unicode) (calls : Nat → RenderCall) (schedule : List Nat) (ha : ∀ i ∈ schedule, ∀ j ∈ schedule, (calls j).on = (calls i).on → j = i)
    (alOf : Key → Option Al) (hok : AlOk alOf) (i : Nat) (hi : i ∈ schedule) (hd : (calls i).events.length ≤ schedule.count i) (st : Statement)
    (hst : (calls i).stmt = some st) (he : st.err = none) (hw : WFL alOf st.visit) :
    ((World.start (fun _ => RState.new) calls).turns calls schedule).result u calls i = .ok (trimSpace u (text st.visit)) := by
  rw [C83_apart u _ calls schedule i (fun j hj g => ha i hi j hj g) hd, hst]
  simp only [render, he]
  exact congrArg _ (congrArg _ (C07_compositional alOf hok _ hw))

namespace SampleTogether
open Sample
/-- `RETURN x, y`, twice, with nothing in common but the renderer; and a third statement with an alias, on another renderer. -/
def pair (k : Key) (x y : Str) : List Tree := [.node ⟨k, .plain c!"RETURN " [] false⟩ [.node ⟨k + 1, .plain [] [] true⟩ [word (k + 2) x, word (k + 3) y]]]
def both : Nat → RenderCall
  | 0 => ⟨0, some ⟨none, pair 100 c!"a" c!"b"⟩⟩
  | 1 => ⟨0, some ⟨none, pair 200 c!"c" c!"d"⟩⟩
  | 2 => ⟨1, some ⟨none, ret⟩⟩
  | _ => ⟨2, none⟩
def results (schedule : List Nat) : List Str := [0, 1, 2].map fun i =>
  match ((World.start (fun _ => RState.new) both).turns both schedule).result .ascii both i with | .ok t => t | .error _ => c!"error"
end SampleTogether
open Sample SampleTogether

-- the third call goes on between the others, which follow one another: nothing is lost
example : results (List.replicate 3 2 ++ List.replicate 8 0 ++ List.replicate 8 2 ++ List.replicate 8 1 ++ List.replicate 9 2) =
    [c!"RETURN a, b", c!"RETURN c, d", c!"RETURN n.age AS a, n ORDER BY a, a"] := by decide +kernel
example : [0, 1].map (((World.start (fun _ => RState.new) both).turns both
      (List.replicate 3 2 ++ List.replicate 8 0 ++ List.replicate 8 2 ++ List.replicate 8 1 ++ List.replicate 9 2)).result .ascii both) =
    renders .ascii RState.new [some ⟨none, pair 100 c!"a" c!"b"⟩, some ⟨none, pair 200 c!"c" c!"d"⟩] :=
  C83_in_turn .ascii (fun _ => RState.new) both _ 0 [0, 1] (by decide) (by decide) (by decide)
-- in any order of turns, the third call gets its text
example : ((World.start (fun _ => RState.new) both).turns both ([2, 0, 1, 0, 2] ++ List.replicate 20 2)).result .ascii both 2 =
    (render .ascii RState.new (some ⟨none, ret⟩)).1 :=
  C83_apart .ascii (fun _ => RState.new) both ([2, 0, 1, 0, 2] ++ List.replicate 20 2) 2 (by decide) (by decide)
example : ((World.start (fun _ => RState.new) both).turns both ([2, 0, 0, 0, 2] ++ List.replicate 20 2)).result .ascii both 2 =
    .ok (trimSpace .ascii (text ret)) :=
  C83_new .ascii both ([2, 0, 0, 0, 2] ++ List.replicate 20 2) (by decide) (aliases [ageAs]) (aliases_ok [ageAs] (by simp [ageAs])) 2 (by decide) (by decide) _ rfl rfl wf_ret

/-- C83: on one renderer, two calls at the same time spoil each other even if the statements have nothing in common: `RETURN c, d` becomes
`RETURN cd` if they take turns. -/
theorem C83_one_renderer :
    results (List.replicate 8 0 ++ List.replicate 8 1 ++ List.replicate 18 2) = [c!"RETURN a, b", c!"RETURN c, d", c!"RETURN n.age AS a, n ORDER BY a, a"] ∧
    results ((List.range 16).map (· % 2) ++ List.replicate 18 2) = [c!"RETURN a, b", c!"RETURN cd", c!"RETURN n.age AS a, n ORDER BY a, a"] := by
  decide +kernel

end Verif
