import Verif.DenoteLemmas4
import Verif.CondLemmas2
/-! The texts of combinations of conditions read back (C52). -/
namespace Verif.Rd
open Verif.Spec

variable {u : Unicode} {I : Meaning} {tight : Bool}

/-! ### The atomic conditions of a combination -/

theorem mem_toksL {op : Option Op} {v : Val} : ∀ {b : Bool} {cs : List Cond}, .atom v ∈ toksL op b cs ↔ ∃ c ∈ cs, .atom v ∈ toks c
  | _, [] => by simp [toksL]
  | b, c :: cs => by
    have : Tok.atom v ∉ (if b then [] else opTok (c.actualOp op)) := by
      split
      · simp
      · unfold opTok; split <;> simp
    simp [toksL, mem_toksL (cs := cs), this]

theorem mem_compound {k : Key} {op : Option Op} {cs cp : List Cond} {em nn hc : Bool} {er : Option Err} {v : Val} :
    .atom v ∈ toks (.compound k op cs em er nn hc cp) ↔ ∃ c ∈ cs, .atom v ∈ toks c := by
  rw [toks]
  split <;> simp [mem_toksL]

theorem mem_addConds {op : Option Op} {cs : List Cond} {ki : Key} {h : Op} {x c : Cond} {v : Val} (hc : c ∈ Cond.addConds op cs ki h x) (hv : .atom v ∈ toks c) :
    c ∈ cs ∨ .atom v ∈ toks x := by
  unfold Cond.addConds at hc
  split at hc
  · split at hc
    · exact .inl hc
    · split at hc
      · split at hc
        · rcases List.mem_append.mp hc with h | h
          · exact .inl h
          · exact .inr (mem_compound.mpr ⟨c, h, hv⟩)
        · rcases List.mem_append.mp hc with h | h
          · exact .inl h
          · simp at h; subst h; exact .inr hv
      · rcases List.mem_append.mp hc with h | h
        · exact .inl h
        · simp at h
          subst h
          simp only [Cond.wrapped, mem_compound, List.mem_singleton] at hv
          obtain ⟨_, rfl, hv⟩ := hv
          exact .inr hv
  · rcases List.mem_append.mp hc with h | h
    · exact .inl h
    · simp at h; subst h; exact .inr hv

theorem mem_create {ks : Cond.Keys} {p q : Cond} {h : Op} {v : Val} (hv : .atom v ∈ toks (Cond.compoundCreate ks p h q)) : .atom v ∈ toks p ∨ .atom v ∈ toks q := by
  unfold Cond.compoundCreate at hv
  split at hv
  · simp [Cond.bad, mem_compound] at hv
  · obtain ⟨c, hc, hv⟩ := mem_compound.mp hv
    rcases mem_addConds hc hv with hc | h
    · rcases mem_addConds hc hv with hc | h
      · cases hc
      · exact .inl h
    · exact .inr h

theorem mem_combine {ks : Cond.Keys} {p q : Cond} {h : Op} {v : Val} (hv : .atom v ∈ toks (Cond.combine ks p h q)) : .atom v ∈ toks p ∨ .atom v ∈ toks q := by
  unfold Cond.combine at hv
  split at hv
  · unfold Cond.add at hv
    split at hv
    · split at hv
      · simp only [Cond.wrapped, mem_compound] at hv
        obtain ⟨c, hc, hv⟩ := hv
        rcases mem_addConds hc hv with hc | h
        · cases hc
        · exact .inr h
      · split at hv
        · obtain ⟨c, hc, hv⟩ := mem_compound.mp hv
          rcases mem_addConds hc hv with hc | h
          · exact .inl (mem_compound.mpr ⟨c, hc, hv⟩)
          · exact .inr h
        · exact mem_create hv
    · exact .inl hv
  · exact mem_create hv

/-- No atomic condition comes from nowhere. -/
theorem mem_build {v : Val} : ∀ (p : Calls), .atom v ∈ toks p.build → v ∈ p.atoms
  | .atom w, h => by simpa [Calls.build, toks, Calls.atoms] using h
  | .empty, h => by simp [Calls.build, Cond.empty, mem_compound] at h
  | .bin ks o p q, h => by
    rcases mem_combine h with h | h
    · simp [Calls.atoms, mem_build p h]
    · simp [Calls.atoms, mem_build q h]
  | .pattern ks o p w, h => by
    rcases mem_create h with h | h
    · simp [Calls.atoms, mem_build p h]
    · simpa [toks, Calls.atoms] using Or.inr h
  | .not k kn p, h => by
    simp [Calls.build, Cond.not, toks] at h
    simp [Calls.atoms, mem_build p h]

/-! ### Visits -/

theorem opVisit_dkeys (o : Option Op) : dkeysL (Cond.opVisit o) = [] := by
  cases o <;> simp [Cond.opVisit, dkeysL, Op.visit, dkeys_leaf]

mutual
theorem cond_dkeys : ∀ (c : Cond), CondOk c → (∀ v, .atom v ∈ toks c → dkeysL v.visit = []) → dkeysL c.toVal.visit = []
  | .atom v, _, h => by rw [Cond.toVal]; exact h v (by simp [toks])
  | .neg k kn c, ho, h => by
    have ho' : CondOk c := by simpa [CondOk] using ho
    have := cond_dkeys c ho' (fun v hv => h v (by simp [toks, hv]))
    rw [Cond.toVal, not_ok ho'.val]
    simp [Val.mk', dkeysL, dkeys_nd, this, Op.visit, dkeys_leaf]
  | .compound k op cs em er nn hc cp, ho, h => by
    have := cond_dkeysL op true cs (by simp only [CondOk] at ho; exact ho.2.2.2) (fun v c hc hv => h v (mem_compound.mpr ⟨c, hc, hv⟩))
    rw [Cond.toVal]
    simp only [Cond.compoundVisit]
    split
    · rw [dkeysL_nd]; exact this
    · exact this
theorem cond_dkeysL (op : Option Op) (b : Bool) : ∀ (cs : List Cond), CondOkL cs → (∀ v, ∀ c ∈ cs, .atom v ∈ toks c → dkeysL v.visit = []) →
    dkeysL (Cond.visits op b cs) = []
  | [], _, _ => by simp [Cond.visits, dkeysL]
  | c :: cs, ho, h => by
    simp only [CondOkL] at ho
    have h1 := cond_dkeys c ho.1 (fun v hv => h v c (by simp) hv)
    have h2 := cond_dkeysL op false cs ho.2.2 (fun v c hc => h v c (List.mem_cons_of_mem _ hc))
    rw [Cond.visits, dkeysL_append, dkeysL_append, h1, h2]
    split
    · rfl
    · simp [opVisit_dkeys]
end

theorem cond_one : ∀ (c : Cond), CondOk c → c.hasCondition = true → (∀ v, .atom v ∈ toks c → Spec.One v.visit) → Spec.One c.toVal.visit
  | .atom v, _, _, h => by rw [Cond.toVal]; exact h v (by simp [toks])
  | .neg k kn c, ho, _, h => by
    have ho' : CondOk c := by simpa [CondOk] using ho
    rw [Cond.toVal, not_ok ho'.val]
    exact ⟨_, _, rfl⟩
  | .compound k op [] em er nn hc cp, ho, hh, h => by simp [Cond.hasCondition] at hh
  | .compound k op [c] em er nn hc cp, ho, hh, h => by
    simp only [CondOk, CondOkL] at ho
    have := cond_one c ho.2.2.2.1 ho.2.2.2.2.1 (fun v hv => h v (mem_compound.mpr ⟨c, by simp, hv⟩))
    rw [Cond.toVal]
    simpa [Cond.compoundVisit, Cond.visits] using this
  | .compound k op (c :: c' :: cs) em er nn hc cp, ho, hh, h => by
    rw [Cond.toVal]
    simp only [Cond.compoundVisit]
    rw [if_pos (by simp)]
    exact ⟨_, _, rfl⟩

/-! ### Reading -/

/-- The words of a formula can be read at level `j`. -/
def Readable (u : Unicode) (I : Meaning) (tight : Bool) (σ : CallKind) (j : Nat) (ts : List Tok) (d : I.D) : Prop :=
  ∃ s ts', Shows (ts.map Tok.part) s ∧ Lexes u s ts' ∧ Prefix I tight j ts' d ∧ Head j ts' ∧ Extra I tight true σ ts'

theorem Readable.below {σ : CallKind} {j k : Nat} {ts : List Tok} {d : I.D} (h : Readable u I tight σ j ts d) (hj : j ≤ 11) (hk : k ≤ j) : Readable u I tight σ k ts d := by
  obtain ⟨s, ts', h1, h2, h3, h4, h5⟩ := h
  exact ⟨s, ts', h1, h2, h3.below hj hk h4, h4.mono hk, h5⟩

theorem Readable.bool {σ : CallKind} {l : Nat} {ts us : List Tok} {a b : I.D} {t : Tok} {w : Str} {o : BinOp} (ha : Readable u I tight σ l ts a) (hb : Readable u I tight σ (l + 1) us b)
    (ho : (w, o, l) ∈ boolToks) (ht : t.part = .lit (' ' :: (w ++ [' ']))) : Readable u I tight σ l (ts ++ t :: us) (I.bin o a b) := by
  obtain ⟨s, ts', h1, h2, h3, h4, h5⟩ := ha
  obtain ⟨s', us', g1, g2, g3, g4, g5⟩ := hb
  have hw : (w != [] && w.all fun c => c.toNat < 128 && c.isAlpha) = true ∧ (Token.word w).is c!"in" = false := by
    simp only [boolToks, List.mem_cons, List.not_mem_nil, or_false, Prod.mk.injEq] at ho
    rcases ho with ⟨rfl, _⟩ | ⟨rfl, _⟩ | ⟨rfl, _⟩ <;> decide
  refine ⟨s ++ (' ' :: (w ++ [' ']) ++ s'), ts' ++ [.word w] ++ us', ?_, ?_, Prefix.bool ho h3 g3, (h4.append _).append _, ?_⟩
  · rw [List.map_append, List.map_cons, ht]
    exact h1.append (Shows.lit _ g1)
  · intro r rs hf hr
    simp only [List.append_assoc, List.cons_append, List.nil_append]
    exact h2 _ _ (Follow.mark (by decide) _) (Tokens.sp (kw w hw.1 (g2 _ _ hf hr)))
  · rw [List.append_assoc]
    refine Never.extra (h5.apart.never (by simp) (by simp) (by simp) (by simp)) (fun hσ => ?_) fun hσ => (h5.noPath hσ).append h4.ne
    exact (h5.noIn hσ).append h4.ne (by intro t r he; cases he; exact hw.2)

mutual
theorem readable_prim {σ : CallKind} {L : Logic} {e : L.D → I.D} (hn : ∀ a, e (L.not a) = I.not (e a)) (ha : ∀ a b, e (L.and a b) = I.bin .and (e a) (e b))
    (ho : ∀ a b, e (L.or a b) = I.bin .or (e a) (e b)) (hx : ∀ a b, e (L.xor a b) = I.bin .xor (e a) (e b)) {ts : List Tok} {f : Formula}
    (hat : ∀ v, .atom v ∈ ts → Readable u I tight σ 3 [.atom v] (e (L.val v))) : ReadsPrim ts f → Readable u I tight σ 3 ts (e (f.eval L))
  | .atom v => hat v (by simp)
  | .paren (ts := ts) h => by
    obtain ⟨s, ts', h1, h2, h3, h4, h5⟩ := readable_or hn ha ho hx (fun v hv => hat v (by simp [hv])) h
    refine ⟨c!"(" ++ (s ++ (c!")" ++ [])), .sym '(' :: ts' ++ [.sym ')'], ?_, ?_, Prefix.group (h5.whole rfl) h3, Head.sym (by simp) _ _,
      (Never.sym (by simp) _).extra (fun _ => NoIn.after _ _) ?_⟩
    · simp only [List.cons_append, List.map_cons, List.map_append, List.map_nil, Tok.part]
      exact Shows.lit _ (h1.append (Shows.lit _ Shows.nil))
    · intro r rs hf hr
      simp only [List.append_assoc, List.cons_append, List.nil_append]
      exact Tokens.sym (by simp [symbols]) (by simp) (h2 _ _ (Follow.mark (by decide) _) (Tokens.sym (by simp [symbols]) (by simp) hr))
    · rintro hσ _ ⟨⟩
      exact (h5.never rfl (CallKind.first_operand hσ)).append _
theorem readable_not {σ : CallKind} {L : Logic} {e : L.D → I.D} (hn : ∀ a, e (L.not a) = I.not (e a)) (ha : ∀ a b, e (L.and a b) = I.bin .and (e a) (e b))
    (ho : ∀ a b, e (L.or a b) = I.bin .or (e a) (e b)) (hx : ∀ a b, e (L.xor a b) = I.bin .xor (e a) (e b)) {ts : List Tok} {f : Formula}
    (hat : ∀ v, .atom v ∈ ts → Readable u I tight σ 3 [.atom v] (e (L.val v))) : ReadsNot ts f → Readable u I tight σ 3 ts (e (f.eval L))
  | .prim h => readable_prim hn ha ho hx hat h
  | .not (ts := ts) h => by
    obtain ⟨s, ts', h1, h2, h3, h4, h5⟩ := readable_not hn ha ho hx (fun v hv => hat v (by simp [hv])) h
    rw [Formula.eval, hn]
    refine ⟨c!"NOT " ++ s, .word c!"NOT" :: ts', Shows.lit _ h1, ?_, Prefix.not h3, ?_, .word (.inl (by decide)) ?_⟩
    · intro r rs hf hr
      have e1 : c!"NOT " = c!"NOT" ++ [' '] := rfl
      rw [e1]
      simp only [List.append_assoc, List.cons_append, List.nil_append]
      exact kw c!"NOT" (by decide) (h2 _ _ hf hr)
    · exact ⟨_, _, rfl, fun h => by omega, fun h => by omega, fun w h => by cases h; decide, fun c h => by cases h⟩
    · obtain ⟨t, r', rfl, _, _, hword, _⟩ := h4
      intro _ _ _ h _
      cases h
      cases t with
      | word w => simpa [Token.is] using fun h => hword w rfl (by simp [h])
      | _ => rfl
theorem readable_and {σ : CallKind} {L : Logic} {e : L.D → I.D} (hn : ∀ a, e (L.not a) = I.not (e a)) (ha : ∀ a b, e (L.and a b) = I.bin .and (e a) (e b))
    (ho : ∀ a b, e (L.or a b) = I.bin .or (e a) (e b)) (hx : ∀ a b, e (L.xor a b) = I.bin .xor (e a) (e b)) {ts : List Tok} {f : Formula}
    (hat : ∀ v, .atom v ∈ ts → Readable u I tight σ 3 [.atom v] (e (L.val v))) : ReadsAnd ts f → Readable u I tight σ 2 ts (e (f.eval L))
  | .one h => (readable_not hn ha ho hx hat h).below (by omega) (by omega)
  | .and h h' => by
    rw [Formula.eval, ha]
    exact (readable_and hn ha ho hx (fun v hv => hat v (by simp [hv])) h).bool (readable_not hn ha ho hx (fun v hv => hat v (by simp [hv])) h') (w := c!"AND") (by simp [boolToks]) rfl
theorem readable_xor {σ : CallKind} {L : Logic} {e : L.D → I.D} (hn : ∀ a, e (L.not a) = I.not (e a)) (ha : ∀ a b, e (L.and a b) = I.bin .and (e a) (e b))
    (ho : ∀ a b, e (L.or a b) = I.bin .or (e a) (e b)) (hx : ∀ a b, e (L.xor a b) = I.bin .xor (e a) (e b)) {ts : List Tok} {f : Formula}
    (hat : ∀ v, .atom v ∈ ts → Readable u I tight σ 3 [.atom v] (e (L.val v))) : ReadsXor ts f → Readable u I tight σ 1 ts (e (f.eval L))
  | .one h => (readable_and hn ha ho hx hat h).below (by omega) (by omega)
  | .xor h h' => by
    rw [Formula.eval, hx]
    exact (readable_xor hn ha ho hx (fun v hv => hat v (by simp [hv])) h).bool (readable_and hn ha ho hx (fun v hv => hat v (by simp [hv])) h') (w := c!"XOR") (by simp [boolToks]) rfl
theorem readable_or {σ : CallKind} {L : Logic} {e : L.D → I.D} (hn : ∀ a, e (L.not a) = I.not (e a)) (ha : ∀ a b, e (L.and a b) = I.bin .and (e a) (e b))
    (ho : ∀ a b, e (L.or a b) = I.bin .or (e a) (e b)) (hx : ∀ a b, e (L.xor a b) = I.bin .xor (e a) (e b)) {ts : List Tok} {f : Formula}
    (hat : ∀ v, .atom v ∈ ts → Readable u I tight σ 3 [.atom v] (e (L.val v))) : ReadsOr ts f → Readable u I tight σ 0 ts (e (f.eval L))
  | .one h => (readable_xor hn ha ho hx hat h).below (by omega) (by omega)
  | .or h h' => by
    rw [Formula.eval, ho]
    exact (readable_or hn ha ho hx (fun v hv => hat v (by simp [hv])) h).bool (readable_xor hn ha ho hx (fun v hv => hat v (by simp [hv])) h') (w := c!"OR") (by simp [boolToks]) rfl
end

theorem level_three (σ : CallKind) : 3 ≤ level σ := by cases σ <;> decide

/-- A combination that means something is not vacuous. -/
theorem meaning_vacuous {L : Logic} : ∀ {p : Calls} {d : L.D}, p.meaning L = some d → p.vacuous = false
  | .atom _, _, _ => rfl
  | .empty, _, h => by simp [Calls.meaning] at h
  | .bin _ o p q, d, h => by
    cases hp : p.meaning L with
    | some a => simp [Calls.vacuous, meaning_vacuous hp]
    | none =>
      cases hq : q.meaning L with
      | some a => simp [Calls.vacuous, meaning_vacuous hq]
      | none => simp [Calls.meaning, hp, hq, Calls.neutral] at h
  | .pattern .., _, _ => rfl
  | .not .., _, _ => rfl

theorem usable_atoms : ∀ {p : Calls}, p.Usable → ∀ v ∈ p.atoms, Calls.UsableAtom v
  | .atom w, h, v, hv => by simp [Calls.atoms] at hv; subst hv; exact h
  | .empty, _, _, hv => by simp [Calls.atoms] at hv
  | .bin .., h, v, hv => by
    simp only [Calls.atoms, List.mem_append] at hv
    exact hv.elim (usable_atoms h.1 v) (usable_atoms h.2 v)
  | .pattern .., h, v, hv => by
    simp only [Calls.atoms, List.mem_append, List.mem_cons, List.not_mem_nil, or_false] at hv
    rcases hv with hv | rfl
    · exact usable_atoms h.1 v hv
    · exact h.2
  | .not _ _ p, h, v, hv => usable_atoms (p := p) h.1 v hv

theorem combination_good {p : Calls} {val : Val → I.D} {kind : Val → CallKind} {d : I.D} {σ : CallKind} (hu : p.Usable) (hf : p.Faithful)
    (ha : ∀ v ∈ p.atoms, Good' u I tight v (val v) (kind v)) (hd : p.meaning (I.logic val) = some d)
    (hσ : σ.isCondition = true) (hσf : σ.first = true → ∀ v ∈ p.atoms, (kind v).first = true)
    (hσo : σ.operand = true → ∀ v ∈ p.atoms, (kind v).operand = true) : Good' u I tight p.build.toVal d σ := by
  obtain ⟨⟨h1, h2⟩, _, h3, _, h5⟩ := build_fine p hu hf
  have hh : p.build.hasCondition = true := by rw [h3, meaning_vacuous hd]; rfl
  obtain ⟨f, hr, hv⟩ := reads_cond p.build h1 h2 hh
  have hdk : dkeysL p.build.toVal.visit = [] := cond_dkeys _ h1 fun v hv => (ha v (mem_build p hv)).dk
  have hone : Spec.One p.build.toVal.visit := cond_one _ h1 hh fun v hv => (ha v (mem_build p hv)).one
  have hd' : d = f.eval (I.logic val) := by
    have := hv (I.logic val)
    rw [h5, hd] at this
    exact Option.some.inj this
  have hat : ∀ v, .atom v ∈ toks p.build → Readable u I tight σ 3 [.atom v] (val v) := by
    intro v hv
    obtain ⟨s, ts, g1, g2, g3, g4, g5⟩ := (ha v (mem_build p hv)).reads
    refine ⟨s ++ [], ts, Shows.hole g1 Shows.nil, by simpa using g2, g3.below (level_le _) (level_three _) g4, g4.mono (level_three _), ?_⟩
    rw [(usable_atoms hu v (mem_build p hv)).2.2] at g5
    exact ⟨fun h => g5.noIn (hσf h v (mem_build p hv)), fun h => g5.noPath (hσf h v (mem_build p hv)), g5.apart,
      fun h h' => g5.never h (hσo h' v (mem_build p hv)), g5.whole⟩
  obtain ⟨s, ts, g1, g2, g3, g4, g5⟩ := readable_not (L := I.logic val) (e := id) (fun _ => rfl) (fun _ _ => rfl) (fun _ _ => rfl) (fun _ _ => rfl) hat hr
  have hl : level σ = 3 := by cases σ <;> simp [CallKind.isCondition] at hσ <;> rfl
  refine ⟨h1.val.1, h1.val.2.1, hone, hdk, fun _ => h1.val.2.2, s, ts, Text.of hdk (fun e he => toks_layout e _ h1 he) g1, g2, ?_, ?_, by rw [h1.val.2.2]; exact g5⟩
  · rw [hl, hd']; exact g3
  · rw [hl]; exact g4

end Verif.Rd
