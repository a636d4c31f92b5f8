import Verif.PropsArith
import Verif.PropsCond
import Verif.CondExact
import Verif.DenoteLemmas

/-
C57 to C61: exactly which names, parameters, numbers, arithmetic expressions and conditions keep what was given.  These say for every
argument whether the corresponding claim (C03, C05, C06, C19, C16) holds for it.
-/

namespace Verif
open Spec

/-! ### C57 Names -/

/-- A text of white space is not the start of a name. -/
theorem readName_blank (u : Unicode) (s : Str) (h : ∀ c ∈ s, u.isSpace c = true) : readName u s = none := by
  cases s with
  | nil => rfl
  | cons c cs =>
    have hs := h c List.mem_cons_self
    have h1 : c ≠ '`' := by
      rintro rfl
      rw [u.space_ascii _ (by decide)] at hs
      exact absurd hs (by decide)
    have h2 : ¬ isNameStart u c := by
      rintro (h | h)
      · rw [u.letter_not_space _ h] at hs; cases hs
      · subst h
        rw [u.space_ascii _ (by decide)] at hs
        exact absurd hs (by decide)
    simp [readName, h1, h2]

/-- C57: a symbolic name, variable or alias is read back, as the whole of itself and whatever follows it that is neither part of a
name nor a back-quote, exactly if it contains a character that is not white space. -/
theorem C57_name_exact (u : Unicode) (s : Str) :
    (∀ rest : Str, rest.head? ≠ some '`' → (∀ c, rest.head? = some c → ¬ isNamePart u c) →
      readName u (escapeIfNecessary u s ++ rest) = some (s, rest)) ↔ ∃ c ∈ s, u.isSpace c = false := by
  constructor
  · intro h
    by_contra hc
    have hb : ∀ c ∈ s, u.isSpace c = true := fun c hc' => by
      cases hx : u.isSpace c with
      | true => rfl
      | false => exact absurd ⟨c, hc', hx⟩ hc
    have he : escapeIfNecessary u s = s := by
      unfold escapeIfNecessary
      rw [if_pos (Or.inl ((trimSpace_length_zero u s).mpr (List.all_eq_true.mpr hb)))]
    have := h [] (by simp) (by simp)
    rw [he, List.append_nil, readName_blank u s hb] at this
    cases this
  · exact fun hs rest hq hr => C03_name_round_trip_partial u s rest hs hq hr

/-- C57: the others are not read as any name. -/
theorem C57_blank_unreadable (u : Unicode) (s : Str) (h : ¬ ∃ c ∈ s, u.isSpace c = false) :
    escapeIfNecessary u s = s ∧ readName u (escapeIfNecessary u s) = none := by
  have hb : ∀ c ∈ s, u.isSpace c = true := fun c hc' => by
    cases hx : u.isSpace c with
    | true => rfl
    | false => exact absurd ⟨c, hc', hx⟩ h
  have he : escapeIfNecessary u s = s := by
    unfold escapeIfNecessary
    rw [if_pos (Or.inl ((trimSpace_length_zero u s).mpr (List.all_eq_true.mpr hb)))]
  exact ⟨he, by rw [he]; exact readName_blank u s hb⟩

-- both sides occur
example : (∃ c ∈ c!" x", Unicode.ascii.isSpace c = false) ∧ ¬ ∃ c ∈ c!" \n", Unicode.ascii.isSpace c = false := by decide

/-! ### C58 Parameters -/

/-- C58: a parameter is read back as the whole of its name, whatever follows that is not part of a name, exactly if its name is an
identifier. -/
theorem C58_parameter_exact (u : Unicode) (name : Str) :
    (∀ rest : Str, (∀ c, rest.head? = some c → ¬ isNamePart u c) → readParameter u (parameterText name ++ rest) = some (name, rest)) ↔
      isIdentifier u name = true := by
  constructor
  · intro h
    have := h [] (by simp)
    rw [List.append_nil] at this
    exact Rd.readName_self this
  · intro hid rest hr
    cases name with
    | nil => simp [isIdentifier] at hid
    | cons c cs =>
      have hp : parameterCreate (c :: cs) = .ok (c :: cs) := by
        simp only [isIdentifier, Bool.and_eq_true] at hid
        have : c ≠ '$' := by
          rintro rfl
          have := hid.1
          simp [identStart, u.letter_ascii] at this
        simp [parameterCreate, this]
      exact (C05_parameter_token_partial u _ _ rest hp hid hr).1

-- both sides occur
example : isIdentifier Unicode.ascii c!"p_1" = true ∧ isIdentifier Unicode.ascii c!"my param" = false := by decide

/-! ### C59 Numbers -/

/-- A whole number has at most ten significant digits if it is a number below 10^10 times a power of ten. -/
theorem tenDigits_int (i : ℤ) : TenDigits (i : ℚ) ↔ ∃ (d : ℤ) (k : ℕ), |d| < 10 ^ 10 ∧ i = d * 10 ^ k := by
  constructor
  · rintro ⟨d, z, hd, h⟩
    cases z with
    | ofNat k =>
      rw [Int.ofNat_eq_natCast, zpow_natCast] at h
      exact ⟨d, k, hd, by exact_mod_cast h⟩
    | negSucc k =>
      refine ⟨i, 0, ?_, by simp⟩
      have hp : (0 : ℚ) < 10 ^ (k + 1) := by positivity
      rw [zpow_negSucc, ← div_eq_mul_inv, eq_div_iff hp.ne'] at h
      have h' : i * 10 ^ (k + 1) = d := by exact_mod_cast h
      calc |i| ≤ |i| * 10 ^ (k + 1) := le_mul_of_one_le_right (abs_nonneg i) (one_le_pow₀ (by norm_num))
        _ = |d| := by rw [← h', abs_mul, abs_of_pos (show (0 : ℤ) < 10 ^ (k + 1) by positivity)]
        _ < 10 ^ 10 := hd
  · rintro ⟨d, k, hd, h⟩
    exact ⟨d, k, hd, by rw [h]; push_cast; rw [zpow_natCast]⟩

/-- C59: an integer literal denotes the integer exactly if the integer is a number below 10^10 times a power of ten. -/
theorem C59_integer_exact (i : ℤ) : readNumber (intLiteralText i) = some (i : ℚ) ↔ ∃ (d : ℤ) (k : ℕ), |d| < 10 ^ 10 ∧ i = d * 10 ^ k := by
  rw [← tenDigits_int]
  obtain ⟨q, h1, h2, h3⟩ := C06_closest i
  rw [h1]
  constructor
  · rintro h
    cases h
    exact h2
  · intro h
    have := h3 i h
    rw [sub_self, abs_zero] at this
    rw [sub_eq_zero.mp (abs_nonpos_iff.mp this)]

/-- C59: it is a whole number in Cypher (digits only, perhaps after a sign) exactly below 10^10. -/
theorem C59_integer_numeral (i : ℤ) : readInt (intLiteralText i) = some i ↔ |i| < 10 ^ 10 := by
  rw [C06_int_literal_partial, Int.abs_eq_natAbs]
  constructor
  · intro h
    split at h
    · omega
    · cases h
  · intro h
    rw [if_pos (by omega)]

/-- C59: two integers have the same literal only if a number below 10^10 times a power of ten is closest to both. -/
theorem C59_integer_collision (i j : ℤ) (h : intLiteralText i = intLiteralText j) :
    ∃ q, TenDigits q ∧ (∀ r, TenDigits r → |q - i| ≤ |r - i|) ∧ ∀ r, TenDigits r → |q - j| ≤ |r - j| := by
  obtain ⟨q, h1, h2, h3⟩ := C06_closest i
  obtain ⟨q', h1', _, h3'⟩ := C06_closest j
  rw [h, h1'] at h1
  cases h1
  exact ⟨q, h2, h3, h3'⟩

-- numbers with at most ten digits before their zeros are exact, however large
example : readNumber (intLiteralText 9000000000000000000) = some (9000000000000000000 : ℤ) :=
  (C59_integer_exact _).mpr ⟨9, 18, by norm_num, by norm_num⟩

/-! ### C60 Arithmetic -/

namespace Exact

/-- Number of operands. -/
def size : ATree → Nat
  | .operand _ => 1
  | .bin _ l r => size l + size r

mutual
/-- What Cypher makes of the text. -/
def seen : ACalls → ATree
  | .operand v => .operand v
  | .bin _ m l r => if m = .pow then onto (seen l) r else .bin (arithSymbol m) (seen l) (seen r)
/-- `t^…` -/
def onto (t : ATree) : ACalls → ATree
  | .operand v => .bin '^' t (.operand v)
  | .bin _ m l r => if m = .pow then onto (onto t l) r else .bin '^' t (.bin (arithSymbol m) (seen l) (seen r))
end

theorem arithSymbol_kind {m : ArithMethod} (h : m ≠ .pow) :
    (arithSymbol m = '*' ∨ arithSymbol m = '/' ∨ arithSymbol m = '%') ∨ arithSymbol m = '+' ∨ arithSymbol m = '-' := by
  cases m <;> simp_all [arithSymbol]

mutual
theorem seen_power (p : ACalls) : ReadsPower (atoks p) (seen p) := by
  cases p with
  | operand v => exact .one (.operand v)
  | bin k m l r =>
    by_cases hm : m = .pow
    · simp only [atoks, seen, hm, if_true]
      exact onto_power r (seen_power l)
    · simp only [atoks, seen, hm, if_false]
      exact .one (paren_atom hm (seen_power l) (seen_power r))
theorem onto_power (p : ACalls) {ts : List ATok} {t : ATree} (h : ReadsPower ts t) : ReadsPower (ts ++ .sym '^' :: atoks p) (onto t p) := by
  cases p with
  | operand v => exact .more h (.operand v)
  | bin k m l r =>
    by_cases hm : m = .pow
    · simp only [atoks, onto, hm, if_true]
      have := onto_power r (onto_power l h)
      simpa using this
    · simp only [atoks, onto, hm, if_false]
      exact .more h (paren_atom hm (seen_power l) (seen_power r))
theorem paren_atom {m : ArithMethod} (hm : m ≠ .pow) {ts us : List ATok} {t u : ATree} (h : ReadsPower ts t) (h' : ReadsPower us u) :
    ReadsAtom (.lp :: (ts ++ .sym (arithSymbol m) :: us) ++ [.rp]) (.bin (arithSymbol m) t u) := by
  rcases arithSymbol_kind hm with hc | hc
  · exact .paren (.one (.more _ hc (.one h) h'))
  · exact .paren (.more _ hc (.one (.one h)) (.one h'))
end

theorem seen_sum (p : ACalls) : ReadsSum (atoks p) (seen p) := .one (.one (seen_power p))

theorem onto_left (p : ACalls) (t : ATree) : ∃ a b, onto t p = .bin '^' a b ∧ size t ≤ size a ∧ (p.isPow = true → size t < size a) := by
  have pos : ∀ t : ATree, 0 < size t := by intro t; induction t with
    | operand v => simp [size]
    | bin c l r h1 h2 => simp [size]; omega
  induction p generalizing t with
  | operand v => exact ⟨t, _, rfl, Nat.le_refl _, by simp [ACalls.isPow]⟩
  | bin k m l r ihl ihr =>
    by_cases hm : m = .pow
    · subst hm
      obtain ⟨a, b, h1, h2, h3⟩ := ihl t
      obtain ⟨a', b', h1', h2', h3'⟩ := ihr (onto t l)
      have : size t < size (onto t l) := by rw [h1, size]; have := pos b; omega
      exact ⟨a', b', by rw [onto, if_pos rfl, h1'], by omega, fun _ => by omega⟩
    · refine ⟨t, _, by rw [onto, if_neg hm], Nat.le_refl _, fun h => ?_⟩
      cases m <;> simp_all [ACalls.isPow]

theorem meant_size (p : ACalls) : size (seen p) = size p.meant ∧ ∀ t, size (onto t p) = size t + size p.meant := by
  induction p with
  | operand v => simp [seen, ACalls.meant, onto, size]
  | bin k m l r ihl ihr =>
    by_cases hm : m = .pow
    · subst hm
      simp [seen, ACalls.meant, onto, size, ihl, ihr, Nat.add_assoc]
    · simp [seen, ACalls.meant, onto, size, ihl, ihr, hm]

theorem seen_meant (p : ACalls) : seen p = p.meant ↔ p.PowersLeft := by
  induction p with
  | operand v => simp [seen, ACalls.meant, ACalls.PowersLeft]
  | bin k m l r ihl ihr =>
    by_cases hm : m = .pow
    · subst hm
      simp only [seen, if_true, ACalls.meant, ACalls.PowersLeft, ← ihl, ← ihr, arithSymbol, true_imp_iff]
      cases r with
      | operand v => simp [onto, ACalls.isPow, seen, ACalls.meant]
      | bin k' m' l' r' =>
        by_cases hm' : m' = .pow
        · subst hm'
          obtain ⟨a, b, h1, _, h3⟩ := onto_left (.bin k' .pow l' r') (seen l)
          have h3 := h3 rfl
          rw [(meant_size l).1] at h3
          rw [h1]
          constructor
          · intro h
            injection h with _ h _
            rw [h] at h3
            omega
          · simp [ACalls.isPow]
        · have : (ACalls.bin k' m' l' r').isPow = false := by cases m' <;> simp_all [ACalls.isPow]
          simp [onto, hm', this, seen]
    · simp [seen, ACalls.meant, ACalls.PowersLeft, ihl, ihr, hm]

end Exact

/-- C60: the text of an arithmetic expression consists of words that Cypher reads in exactly one way, and this is the expression
that was built exactly if no power is the exponent of a power. -/
theorem C60_arithmetic_exact (p : ACalls) (hu : p.Usable) (e : Env) (ha : NoAlias e p.keys p.build.visit) :
    ∃ ts, shownAs e p.build.visit = layout e (ts.map ATok.part) ∧ (∃ t, ReadsSum ts t) ∧ ∀ t, ReadsSum ts t → (t = p.meant ↔ p.PowersLeft) := by
  refine ⟨atoks p, atoks_layout e p hu ha, ⟨_, Exact.seen_sum p⟩, fun t ht => ?_⟩
  rw [areads_unique ht (Exact.seen_sum p)]
  exact Exact.seen_meant p

/-- C60: a method other than `Pow` keeps the grouping of both its operands, if they keep theirs. -/
theorem C60_calls (k : Key) (m : ArithMethod) (l r : ACalls) : (ACalls.bin k m l r).PowersLeft ↔
    l.PowersLeft ∧ r.PowersLeft ∧ ¬ (m = .pow ∧ ∃ k' l' r', r = .bin k' .pow l' r') := by
  rw [ACalls.PowersLeft]
  have : r.isPow = false ↔ ¬ ∃ k' l' r', r = .bin k' .pow l' r' := by
    cases r with
    | operand v => simp [ACalls.isPow]
    | bin k' m' l' r' => cases m' <;> simp [ACalls.isPow]
  rw [this]
  simp only [not_and]

example : SampleArith.poly.PowersLeft ∧ ¬ (ACalls.bin 200 .pow SampleArith.wa (.bin 201 .pow SampleArith.wb SampleArith.wc)).PowersLeft := by
  constructor
  · simp [SampleArith.poly, ACalls.PowersLeft, SampleArith.wa, SampleArith.wb, SampleArith.wc, ACalls.isPow]
  · simp [ACalls.PowersLeft, SampleArith.wa, SampleArith.wb, SampleArith.wc, ACalls.isPow]

/-! ### C61 Conditions -/

/-- C61: the text of a combination of conditions consists of words that Cypher reads in exactly one way.  This reading has, whatever the
atomic conditions and the connectives mean (AND, OR and XOR being associative), the value of the combination as it was written,
exactly if between matching parentheses no operator is followed by one that binds stronger: no AND after XOR or OR, no XOR after OR. -/
theorem C61_condition_exact (p : Calls) (hu : p.Usable) (hn : p.vacuous = false) (e : Env) (ha : NoAlias e (ownKeys p.build) p.build.toVal.visit) :
    ∃ ts, shownAs e p.build.toVal.visit = layout e (ts.map Tok.part) ∧ (∃ f, Reads ts f) ∧
      ∀ f, Reads ts f → ((∀ L : Logic, p.meaning L = some (f.eval L)) ↔ Orderly [] ts) := by
  have hok := build_ok p hu
  have hh : p.build.hasCondition = true := by rw [build_hasCondition p hu, hn]; rfl
  have hr : Reads (toks p.build) (CondExact.form CondExact.rread p.build) :=
    readsAt_or (readsAt_one (b := .and) (CondExact.form_reads _ hok (CondExact.build_negOk p hu) hh))
  refine ⟨toks p.build, toks_layout e _ hok ha, ⟨_, hr⟩, fun f hf => ?_⟩
  rw [reads_unique hf hr]
  have hm : ∀ L : Logic, p.meaning L = some ((CondExact.form CondExact.lread p.build).eval L) := fun L => by
    rw [← CondExact.build_val L p hu, CondExact.condVal, if_pos hh]
  have ho := CondExact.orderly_cond p.build hok [] []
  rw [List.append_nil] at ho
  rw [ho]
  constructor
  · intro h
    refine ⟨CondExact.reads_tidy _ ?_, trivial⟩
    have := h CondExact.free
    rw [hm] at this
    exact Option.some.inj this
  · rintro ⟨h, -⟩ L
    rw [hm, CondExact.tidy_reads _ h]

/-- C61: in particular the combinations of C16 are in order. -/
theorem C61_faithful (p : Calls) (hu : p.Usable) (hf : p.Faithful) (hn : p.vacuous = false) (e : Env)
    (ha : NoAlias e (ownKeys p.build) p.build.toVal.visit) :
    ∃ ts, shownAs e p.build.toVal.visit = layout e (ts.map Tok.part) ∧ Orderly [] ts := by
  obtain ⟨h1, _, h3, _, h5⟩ := build_fine p hu hf
  obtain ⟨f, hr, hv⟩ := reads_cond p.build h1.1 h1.2 (by simp [h3, hn])
  have hok := build_ok p hu
  refine ⟨toks p.build, toks_layout e _ hok ha, ?_⟩
  have hh : p.build.hasCondition = true := by rw [build_hasCondition p hu, hn]; rfl
  have ho := CondExact.orderly_cond p.build hok [] []
  rw [List.append_nil] at ho
  rw [ho]
  refine ⟨CondExact.reads_tidy _ ?_, trivial⟩
  have hq := reads_unique (readsAt_or (readsAt_one (b := .and) hr))
    (readsAt_or (readsAt_one (b := .and) (CondExact.form_reads _ hok (CondExact.build_negOk p hu) hh)))
  have h6 : p.meaning CondExact.free = some (CondExact.flat f) := by rw [← h5, hv]; rfl
  rw [← CondExact.build_val _ p hu, CondExact.condVal, if_pos hh] at h6
  rw [← hq]
  exact Option.some.inj h6

namespace SampleCond
/-- `a.And(b).Or(c.Or(d))` -/
def kept : Calls := .bin (ks 0) .or (.bin (ks 1) .and ca cb) (.bin (ks 2) .or cc cd)
end SampleCond

-- a combination that is not one of C16 and is read as it was written, and one that is not
example : ¬ SampleCond.kept.Faithful ∧ text SampleCond.kept.build.toVal.visit = c!"(a AND b OR (c OR d))" ∧ Orderly [] (toks SampleCond.kept.build) := by
  refine ⟨?_, by decide +kernel, ?_⟩
  · simp [SampleCond.kept, Calls.Faithful, Calls.single, Calls.vacuous, Calls.lastOp, SampleCond.ca, SampleCond.cb, SampleCond.cc, SampleCond.cd]
  · show Orderly [] [.lp, .atom _, .and, .atom _, .or, .lp, .atom _, .or, .atom _, .rp, .rp]
    simp [Orderly, BOp.weakness]

example : ¬ Orderly [] (toks SampleCond.mixed.build) := by
  show ¬ Orderly [] [.lp, .atom _, .or, .atom _, .and, .lp, .atom _, .or, .atom _, .rp, .rp]
  simp [Orderly, BOp.weakness]

end Verif
