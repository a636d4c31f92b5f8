import Verif.DenoteLemmas7

/-
C52: expressions read back.
-/

namespace Verif
open Spec

variable {u : Unicode} {I : Meaning} {tight : Bool}

theorem Spec.Denotes.good {v : Val} {d : I.D} {σ : CallKind} (h : Denotes u I tight v d σ) : Rd.Good' u I tight v d σ := by
  induction h with
  | str k s => exact Rd.str_good k s
  | int k i h => exact Rd.int_good k i h
  | float h h' => exact Rd.float_good h h'
  | bool k b => exact Rd.bool_good k b
  | constant b => exact Rd.constant_good b
  | null => exact Rd.null_good
  | param k n _ h => exact Rd.param_good k n h
  | var k h => exact Rd.var_good k h
  | property k kl _ h h' ih => exact Rd.property1_good k kl ih h h'
  | property' k kl _ h h' ih => exact Rd.property_good k kl ih h h'
  | nodeProperty k kl h1 h2 h3 h4 h5 => exact Rd.nodeProperty_good k kl h1 h2 h3 h4 h5
  | hasLabels k ks h1 h2 h3 h4 => exact Rd.hasLabels_good k ks h1 h2 h3 h4
  | nodeCall h1 h2 h3 h4 h5 => exact Rd.nodeCall_good h1 h2 h3 h4 h5
  | relCall h1 h2 h3 h4 h5 => exact Rd.relCall_good h1 h2 h3 h4 h5
  | pathCall h1 h2 h3 => exact Rd.pathCall_good h1 h2 h3
  | collectNode h1 h2 h3 h4 h5 => exact Rd.collectNode_good h1 h2 h3 h4 h5
  | receiver _ h h' ih => exact Rd.receiver_good ih h h'
  | arith k hm _ _ h1 h2 ihl ihr => exact Rd.arith_good k hm ihl ihr h1 h2
  | pow k _ _ h1 h2 h3 ihl ihr => exact Rd.pow_good k ihl ihr h1 h2 h3
  | compare k kl kr _ _ h1 h2 h ihl ihr => exact Rd.compare_good k kl kr ihl ihr h1 h2 h
  | isNull k kn _ h1 h ih => exact Rd.null_ops_good k kn true ih h1 h
  | isNotNull k kn _ h1 h ih => exact Rd.null_ops_good k kn false ih h1 h
  | combination h1 h2 _ h3 h4 h5 h6 ih => exact Rd.combination_good h1 h2 ih h3 h4 h5 h6
  | call _ h1 h2 ih => exact Rd.call_good ih h1 h2
  | countAll h => exact Rd.countAll_good h
  | coalesce _ h1 h2 ih => exact Rd.coalesce_good ih h1 h2
  | distance _ _ h ih1 ih2 => exact Rd.distance_good ih1 ih2 h
  | range _ _ h ih1 ih2 => exact Rd.range_good ih1 ih2 h
  | rangeWithStep _ _ _ h ih1 ih2 ih3 => exact Rd.rangeWithStep_good ih1 ih2 ih3 h
  | percentile _ h1 h2 h3 ih => exact Rd.percentile_good ih h1 h2 h3
  | predicateExists _ h ih => exact Rd.predicateExists_good ih h
  | list k kl _ h ih => exact Rd.list_good k kl ih h
  | listLiteral k _ h ih => exact Rd.listLiteral_good k ih h
  | map h1 _ h2 h3 h4 ih => exact Rd.map_good h1 ih h2 h3 h4
  | projection h1 h2 h3 h4 _ h5 ih => exact Rd.projection_good h1 h2 h3 h4 ih h5
  | valueAt k kd _ _ ih1 ih2 => exact Rd.valueAt_good k kd ih1 ih2
  | subList k kd _ _ _ ih1 ih2 ih3 => exact Rd.subList_good k kd ih1 ih2 ih3
  | subListFrom k kd _ _ ih1 ih2 => exact Rd.subListFrom_good k kd ih1 ih2
  | subListUntil k kd _ _ ih1 ih2 => exact Rd.subListUntil_good k kd ih1 ih2
  | case _ _ _ h1 _ h2 ih1 ih2 ih3 ih4 => exact Rd.case_good ih1 ih2 ih3 h1 ih4 h2
  | quantified h1 _ _ h2 ih1 ih2 => exact Rd.quantified_good h1 ih1 ih2 h2
  | comprehension h1 _ _ _ h2 ih1 ih2 ih3 => exact Rd.comprehension_good h1 ih1 ih2 ih3 h2
  | pattern k _ h ih => exact Rd.pattern_good ih k h
  | excludedPattern k _ h ih => exact Rd.excludedPattern_good ih k h
  | patternCall k ka hf _ h ih =>
    simp only [List.mem_cons, Prod.mk.injEq, List.not_mem_nil, or_false] at hf
    rcases hf with ⟨rfl, rfl⟩ | ⟨rfl, rfl⟩
    · exact Rd.patternCall_good ih k ka (f := fnSize) (by simp) h
    · exact Rd.patternCall_good ih k ka (f := fnShortestPath) (by simp) h
  | existsPattern k kf ka _ h ih => exact Rd.existsPattern_good ih k kf ka h
  | patternComprehension _ h hc _ _ hf hv ih1 ih2 ih3 => exact Rd.patternComprehension_good ih1 h hc ih2 ih3 hf hv
  | existsMatch k km kw _ hn h hc _ ih1 ih2 => exact Rd.existsMatch_good ih1 k km kw hn h hc ih2

theorem nextToken_space : ∀ {s : Str}, s.all u.isSpace = true → nextToken u s = none
  | [], _ => rfl
  | c :: s, h => by
    simp only [List.all_cons, Bool.and_eq_true] at h
    simp [nextToken, h.1, nextToken_space h.2]

theorem Spec.Tokens.unique {s : Str} {ts ts' : List Token} (h : Tokens u s ts) (h' : Tokens u s ts') : ts = ts' := by
  induction h generalizing ts' with
  | blank hs =>
    cases h' with
    | blank => rfl
    | more hn => rw [nextToken_space hs] at hn; cases hn
  | more hn _ ih =>
    cases h' with
    | blank hs => rw [nextToken_space hs] at hn; cases hn
    | more hn' ht =>
      rw [hn] at hn'
      cases hn'
      rw [ih ht]

/-- C52: the text of every expression reads as what was meant, in every version of Cypher, whatever the constructs mean.  Missing: the results that
are used as operands although they need parentheses that are not written, see below.  Patterns,
pattern comprehensions and EXISTS are included, as they are shown at some point of a statement; `C52_reads_inside_partial` is about any point. -/
theorem C52_reads_partial {v : Val} {d : I.D} {σ : CallKind} (h : Denotes u I tight v d σ) {e : Env} (he : ∀ k, e.al k = none) :
    v.err = none ∧ ReadsAs u tight I (shownAs e v.visit).1 d := by
  obtain ⟨s, ts, h1, h2, h3, _⟩ := h.good.below
  refine ⟨h.good.err, ?_⟩
  rw [h1 e he]
  have ht := h2 [] [] Rd.Follow.nil (.blank rfl)
  have hr := h3.reads (r := []) (by omega) (Rd.Stops.nil 0)
  rw [List.append_nil] at ht hr
  exact ⟨ts ++ [], ht, by rw [List.append_nil]; exact hr⟩

/-- A text has at most one meaning. -/
theorem C52_unambiguous {s : Str} {d d' : I.D} (h : ReadsAs u tight I s d) (h' : ReadsAs u tight I s d') : d = d' := by
  obtain ⟨ts, h1, n, h2⟩ := h
  obtain ⟨ts', h1', n', h2'⟩ := h'
  obtain rfl := h1.unique h1'
  have := h2 (n + n') (by omega)
  rw [h2' (n + n') (by omega)] at this
  simpa using this.symm

/-- Expressions with the same text mean the same. -/
theorem C52_same_text {v v' : Val} {d d' : I.D} {σ σ' : CallKind} (h : Denotes u I tight v d σ) (h' : Denotes u I tight v' d' σ') (ht : text v.visit = text v'.visit) :
    d = d' := by
  have h1 := (C52_reads_partial h (e := Env.empty) fun _ => rfl).2
  have h2 := (C52_reads_partial h' (e := Env.empty) fun _ => rfl).2
  exact C52_unambiguous h1 (by unfold text at ht; exact ht ▸ h2)

/-! ### Results that cannot be operands -/

/-- The words of a text, computed. -/
def Spec.lex (u : Unicode) : Nat → Str → Option (List Token)
  | 0, _ => none
  | n + 1, s =>
    match nextToken u s with
    | some (t, r) => (lex u n r).map (t :: ·)
    | none => if s.all u.isSpace then some [] else none

theorem Spec.lex_tokens : ∀ {n : Nat} {s : Str} {ts : List Token}, lex u n s = some ts → Tokens u s ts
  | 0, _, _, h => by simp [lex] at h
  | n + 1, s, ts, h => by
    rw [lex] at h
    split at h
    · rename_i t r hn
      obtain ⟨us, h1, rfl⟩ := Option.map_eq_some_iff.mp h
      exact .more hn (lex_tokens h1)
    · split at h
      · cases h; exact .blank ‹_›
      · cases h

namespace SampleRead

/-- A sample meaning: names and texts are numbers. -/
def ints : Meaning where
  D := Int
  str s := (s.map fun c => (c.toNat : Int)).sum
  num q := q.num
  bool b := if b then 1 else 0
  null := -1
  star := -2
  param s := (s.map fun c => (c.toNat : Int)).sum
  name s := (s.map fun c => (c.toNat : Int)).sum
  prop d s := d * 1000 + (s.map fun c => (c.toNat : Int)).sum
  labels d ls := d + ls.length
  bin o a b :=
    match o with
    | .or | .xor | .and => a * b
    | .add => a + b
    | .pow => if a = 0 then 7 else 2 * b + 13
    | .eq | .in_ => if a = b then 1 else 0
    | _ => a - b
  neg a := -a
  not a := 1 - a
  isNull a := if a = -1 then 1 else 0
  isNotNull a := if a = -1 then 0 else 1
  call s b ds := ds.sum + s.length + (if b then 1 else 0)
  list ds := ds.sum
  map es := es.length
  projection _ xs := xs.length
  index a b := a + 5 * b
  slice a _ _ := a
  case _ bs _ := bs.length
  quantified _ _ a b := a + b
  comprehension _ a _ _ := a + 1
  pattern p := p.steps.length
  patternList p _ a := p.steps.length + a
  existsMatch ps _ := ps.length
  assoc o h a b c := by rcases h with rfl | rfl | rfl <;> exact Int.mul_assoc a b c
  neg_num q := by simp

instance : DecidableEq ints.D := inferInstanceAs (DecidableEq Int)

def va : Val := symbolicName .ascii 201 c!"a"
def vb : Val := symbolicName .ascii 202 c!"b"
def vc : Val := symbolicName .ascii 203 c!"c"
end SampleRead
open SampleRead

/-- A condition that is an operand of a calculation is not put in parentheses: `a.Add(b.IsEqualTo(c))` reads as the comparison of `a + b` and
`c`. -/
theorem C52_condition_operand (I : Meaning) (tight : Bool) :
    let v := arith .add 300 (some va) (some (compare .isEqualTo 301 302 303 (some vb) (some vc)))
    v.err = none ∧ text v.visit = c!"(a + b = c)" ∧
      ReadsAs .ascii tight I (text v.visit) (I.bin .eq (I.bin .add (I.name c!"a") (I.name c!"b")) (I.name c!"c")) := by
  have h : text (arith .add 300 (some va) (some (compare .isEqualTo 301 302 303 (some vb) (some vc)))).visit = c!"(a + b = c)" := by decide +kernel
  refine ⟨rfl, h, ?_⟩
  rw [h]
  refine ⟨_, lex_tokens (n := 20) rfl, 60, fun m hm => ?_⟩
  obtain ⟨k, rfl⟩ := Nat.exists_eq_add_of_le' hm
  cases tight <;> rfl

/-- ... and not as the sum of `a` and the comparison. -/
theorem C52_condition_operand_misread : ∃ I : Meaning, ¬ ReadsAs .ascii tight I
    (text (arith .add 300 (some va) (some (compare .isEqualTo 301 302 303 (some vb) (some vc)))).visit)
    (I.bin .add (I.name c!"a") (I.bin .eq (I.name c!"b") (I.name c!"c"))) := by
  refine ⟨ints, fun h => ?_⟩
  have := C52_unambiguous h (C52_condition_operand ints tight).2.2
  revert this
  decide +kernel

/-- A power that is the second operand of a power is not put in parentheses: `a.Pow(b.Pow(c))` reads as `(a ^ b) ^ c`. -/
theorem C52_power_operand (I : Meaning) (tight : Bool) :
    let v := arith .pow 300 (some va) (some (arith .pow 301 (some vb) (some vc)))
    v.err = none ∧ text v.visit = c!"a^b^c" ∧
      ReadsAs .ascii tight I (text v.visit) (I.bin .pow (I.bin .pow (I.name c!"a") (I.name c!"b")) (I.name c!"c")) := by
  have h : text (arith .pow 300 (some va) (some (arith .pow 301 (some vb) (some vc)))).visit = c!"a^b^c" := by decide +kernel
  refine ⟨rfl, h, ?_⟩
  rw [h]
  refine ⟨_, lex_tokens (n := 20) rfl, 60, fun m hm => ?_⟩
  obtain ⟨k, rfl⟩ := Nat.exists_eq_add_of_le' hm
  cases tight <;> rfl

theorem C52_power_operand_misread : ∃ I : Meaning, ¬ ReadsAs .ascii tight I
    (text (arith .pow 300 (some va) (some (arith .pow 301 (some vb) (some vc)))).visit)
    (I.bin .pow (I.name c!"a") (I.bin .pow (I.name c!"b") (I.name c!"c"))) := by
  refine ⟨ints, fun h => ?_⟩
  have := C52_unambiguous h (C52_power_operand ints tight).2.2
  revert this
  decide +kernel

/-- Neither is a power whose property, or one of whose elements, is taken. -/
theorem C52_power_access (I : Meaning) (tight : Bool) :
    let p := arith .pow 300 (some va) (some vb)
    let v := propertyCreate1 .ascii 301 302 p c!"name"
    let w := valueAt 303 304 (some p) (some vc)
    (v.err = none ∧ text v.visit = c!"a^b.name" ∧
      ReadsAs .ascii tight I (text v.visit) (I.bin .pow (I.name c!"a") (I.prop (I.name c!"b") c!"name"))) ∧
    (w.err = none ∧ text w.visit = c!"a^b[c]" ∧
      ReadsAs .ascii tight I (text w.visit) (I.bin .pow (I.name c!"a") (I.index (I.name c!"b") (I.name c!"c")))) := by
  have h : text (propertyCreate1 .ascii 301 302 (arith .pow 300 (some va) (some vb)) c!"name").visit = c!"a^b.name" := by decide +kernel
  have h' : text (valueAt 303 304 (some (arith .pow 300 (some va) (some vb))) (some vc)).visit = c!"a^b[c]" := by decide +kernel
  refine ⟨⟨rfl, h, ?_⟩, rfl, h', ?_⟩
  · rw [h]
    refine ⟨_, lex_tokens (n := 20) rfl, 60, fun m hm => ?_⟩
    obtain ⟨k, rfl⟩ := Nat.exists_eq_add_of_le' hm
    cases tight <;> rfl
  · rw [h']
    refine ⟨_, lex_tokens (n := 20) rfl, 60, fun m hm => ?_⟩
    obtain ⟨k, rfl⟩ := Nat.exists_eq_add_of_le' hm
    cases tight <;> rfl

theorem C52_power_access_misread : ∃ I : Meaning,
    ¬ ReadsAs .ascii tight I (text (propertyCreate1 .ascii 301 302 (arith .pow 300 (some va) (some vb)) c!"name").visit)
      (I.prop (I.bin .pow (I.name c!"a") (I.name c!"b")) c!"name") ∧
    ¬ ReadsAs .ascii tight I (text (valueAt 303 304 (some (arith .pow 300 (some va) (some vb))) (some vc)).visit)
      (I.index (I.bin .pow (I.name c!"a") (I.name c!"b")) (I.name c!"c")) := by
  refine ⟨ints, fun h => ?_, fun h => ?_⟩
  · have := C52_unambiguous h (C52_power_access ints tight).1.2.2
    revert this
    decide +kernel
  · have := C52_unambiguous h (C52_power_access ints tight).2.2.2
    revert this
    decide +kernel

/-- A list that begins with a membership test reads as a list comprehension. -/
theorem C52_membership_list (I : Meaning) (tight : Bool) :
    let v := listExpression 300 301 [compare .in_ 302 303 304 (some va) (some vb)]
    v.err = none ∧ text v.visit = c!"[a IN b]" ∧ ReadsAs .ascii tight I (text v.visit) (I.comprehension c!"a" (I.name c!"b") none none) := by
  have h : text (listExpression 300 301 [compare .in_ 302 303 304 (some va) (some vb)]).visit = c!"[a IN b]" := by decide +kernel
  refine ⟨rfl, h, ?_⟩
  rw [h]
  refine ⟨_, lex_tokens (n := 20) rfl, 60, fun m hm => ?_⟩
  obtain ⟨k, rfl⟩ := Nat.exists_eq_add_of_le' hm
  cases tight <;> rfl

theorem C52_membership_list_misread : ∃ I : Meaning, ¬ ReadsAs .ascii tight I
    (text (listExpression 300 301 [compare .in_ 302 303 304 (some va) (some vb)]).visit) (I.list [I.bin .in_ (I.name c!"a") (I.name c!"b")]) := by
  refine ⟨ints, fun h => ?_⟩
  have := C52_unambiguous h (C52_membership_list ints tight).2.2
  revert this
  decide +kernel

/-- In the older versions, a power to the left of `IN`, `STARTS WITH`, `IS NULL` etc. is read as a power with the test as exponent. -/
theorem C52_power_test (I : Meaning) :
    let v := compare .in_ 300 301 302 (some (arith .pow 303 (some va) (some vb))) (some vc)
    let w := isNull 300 301 (some (arith .pow 303 (some va) (some vb)))
    (v.err = none ∧ text v.visit = c!"a^b IN c" ∧
      ReadsAs .ascii true I (text v.visit) (I.bin .pow (I.name c!"a") (I.bin .in_ (I.name c!"b") (I.name c!"c"))) ∧
      ReadsAs .ascii false I (text v.visit) (I.bin .in_ (I.bin .pow (I.name c!"a") (I.name c!"b")) (I.name c!"c"))) ∧
    (w.err = none ∧ text w.visit = c!"a^b IS NULL" ∧
      ReadsAs .ascii true I (text w.visit) (I.bin .pow (I.name c!"a") (I.isNull (I.name c!"b"))) ∧
      ReadsAs .ascii false I (text w.visit) (I.isNull (I.bin .pow (I.name c!"a") (I.name c!"b")))) := by
  have h : text (compare .in_ 300 301 302 (some (arith .pow 303 (some va) (some vb))) (some vc)).visit = c!"a^b IN c" := by decide +kernel
  have h' : text (isNull 300 301 (some (arith .pow 303 (some va) (some vb)))).visit = c!"a^b IS NULL" := by decide +kernel
  refine ⟨⟨rfl, h, ?_, ?_⟩, rfl, h', ?_, ?_⟩
  · rw [h]
    refine ⟨_, lex_tokens (n := 20) rfl, 60, fun m hm => ?_⟩
    obtain ⟨k, rfl⟩ := Nat.exists_eq_add_of_le' hm
    rfl
  · rw [h]
    refine ⟨_, lex_tokens (n := 20) rfl, 60, fun m hm => ?_⟩
    obtain ⟨k, rfl⟩ := Nat.exists_eq_add_of_le' hm
    rfl
  · rw [h']
    refine ⟨_, lex_tokens (n := 20) rfl, 60, fun m hm => ?_⟩
    obtain ⟨k, rfl⟩ := Nat.exists_eq_add_of_le' hm
    rfl
  · rw [h']
    refine ⟨_, lex_tokens (n := 20) rfl, 60, fun m hm => ?_⟩
    obtain ⟨k, rfl⟩ := Nat.exists_eq_add_of_le' hm
    rfl

/-- A name that is a keyword is not put in back-ticks: the variable `null` reads as the null value, and the variable `case` cannot be read. -/
theorem C52_keyword_names (I : Meaning) (tight : Bool) :
    (let v := symbolicName .ascii 300 c!"null"
    v.err = none ∧ text v.visit = c!"null" ∧ ReadsAs .ascii tight I (text v.visit) I.null) ∧
    (let v := symbolicName .ascii 300 c!"case"
    v.err = none ∧ text v.visit = c!"case" ∧ ∀ d, ¬ ReadsAs .ascii tight I (text v.visit) d) := by
  have h : text (symbolicName .ascii 300 c!"null").visit = c!"null" := by decide +kernel
  have h' : text (symbolicName .ascii 300 c!"case").visit = c!"case" := by decide +kernel
  refine ⟨⟨rfl, h, ?_⟩, rfl, h', fun d hd => ?_⟩
  · rw [h]
    refine ⟨_, lex_tokens (n := 20) rfl, 60, fun m hm => ?_⟩
    obtain ⟨k, rfl⟩ := Nat.exists_eq_add_of_le' hm
    cases tight <;> rfl
  · rw [h'] at hd
    obtain ⟨ts, h1, n, h2⟩ := hd
    have := h1.unique (lex_tokens (u := .ascii) (n := 20) (ts := [.word c!"case"]) rfl)
    subst this
    have h3 := h2 (n + 60) (by omega)
    have h4 : readExpr I tight (n + 60) 0 [.word c!"case"] = none := by cases tight <;> rfl
    rw [h4] at h3
    cases h3

/-! ### An example -/

namespace SampleRead
/-- `x.age.Add(1).Gt(parameter("p")).And(y.In([1, 2]))` -/
def age : Val := propertyCreate1 .ascii 210 211 va c!"age"
def sum : Val := arith .add 212 (some age) (some (intLiteral 213 1))
def gt : Val := compare .gt 214 215 216 (some sum) (some (parameter 217 c!"p"))
def test : Val := compare .in_ 218 219 220 (some vb) (some (listExpression 221 222 [intLiteral 223 1, intLiteral 224 (-2)]))
def both : Calls := .bin ⟨225, 226, 227⟩ .and (.atom gt) (.atom test)
end SampleRead

example : text both.build.toVal.visit = c!"((a.age + 1) > $p AND b IN [1, -2])" := by decide +kernel

example (I : Meaning) (tight : Bool) : ∃ σ, Denotes .ascii I tight both.build.toVal
    (I.bin .and (I.bin .gt (I.bin .add (I.prop (I.name c!"a") c!"age") (I.num 1)) (I.param c!"p")) (I.bin .in_ (I.name c!"b") (I.list [I.num 1, I.num (-2)]))) σ := by
  have ten : ∀ i : Int, i.natAbs < 10 → TenDigits (i : ℚ) := fun i hi =>
    ⟨i, 0, by rw [Int.abs_eq_natAbs]; omega, by simp⟩
  have name : ∀ n ∈ [c!"a", c!"b", c!"age"], VarName .ascii n := by
    intro n hn
    simp only [List.mem_cons, List.not_mem_nil, or_false] at hn
    rcases hn with rfl | rfl | rfl <;> exact ⟨⟨_, .head _, by decide⟩, by decide, by decide⟩
  have h1 : Denotes .ascii I tight sum (I.bin .add (I.prop (I.name c!"a") c!"age") (I.num 1)) .atom :=
    .arith (m := .add) _ (by decide) (.property _ _ (.var _ (name _ (by simp))) (name _ (by simp)).1 (by decide)) (.int _ 1 (ten 1 (by decide))) rfl rfl
  have h2 : Denotes .ascii I tight gt (I.bin .gt (I.bin .add (I.prop (I.name c!"a") c!"age") (I.num 1)) (I.param c!"p")) .condition :=
    .compare (m := .gt) _ _ _ h1 (.param _ 0 (by decide) (by decide +kernel)) rfl rfl (by simp [textual])
  have h3 : Denotes .ascii I tight (listExpression 221 222 [intLiteral 223 1, intLiteral 224 (-2)]) (I.list [I.num 1, I.num (-2)]) .atom := by
    have := Denotes.list (u := .ascii) (tight := tight) 221 222 (xs := [⟨intLiteral 223 1, I.num (1 : Int), .atom⟩, ⟨intLiteral 224 (-2), I.num (-2 : Int), .negative⟩])
      (by
        intro x hx
        simp only [List.mem_cons, List.not_mem_nil, or_false] at hx
        rcases hx with rfl | rfl
        · exact .int _ 1 (ten 1 (by decide))
        · exact .int _ (-2) (ten (-2) (by decide)))
      (by simp [CallKind.first])
    simpa using this
  have h4 : Denotes .ascii I tight test (I.bin .in_ (I.name c!"b") (I.list [I.num 1, I.num (-2)])) .membership :=
    .compare (m := .in_) _ _ _ (.var _ (name _ (by simp))) h3 rfl rfl (by simp)
  refine ⟨.membership, .combination (val := fun v => if v.key = 214 then _ else _) (kind := fun v => if v.key = 214 then .condition else .membership)
    ⟨⟨rfl, rfl, rfl⟩, rfl, rfl, rfl⟩ ⟨trivial, trivial, .inl rfl⟩ (fun v hv => ?_) rfl rfl (fun h => by cases h) fun _ v _ => ?_⟩
  rotate_left
  · split <;> rfl
  simp only [both, Calls.atoms, List.mem_append, List.mem_singleton] at hv
  rcases hv with rfl | rfl
  · exact h2
  · exact h4

/-! Labels of a node, functions of a node, and map projections. -/

namespace SampleRead
def person : NodeV := (NodeV.create2 230 231 c!"Person").namedByString 232 c!"n"
end SampleRead

example : text (person.hasLabels .ascii 240 (fun i => 250 + i) [c!"A", c!"B"]).visit = c!"n:`A`:`B`" := by decide +kernel

example (I : Meaning) (tight : Bool) : Denotes .ascii I tight (person.hasLabels .ascii 240 (fun i => 250 + i) [c!"A", c!"B"])
    (I.labels (I.name c!"n") [c!"A", c!"B"]) .label :=
  .hasLabels (kn := 232) (s := c!"n") _ _ rfl ⟨⟨_, .head _, by decide⟩, by decide, by decide⟩ (by simp) (by simp)

example (I : Meaning) (tight : Bool) : ∃ v, fnNode .ascii .labels 240 241 person = .ok v ∧
    Denotes .ascii I tight v (I.call c!"labels" false [I.name c!"n"]) .atom :=
  ⟨_, rfl, .nodeCall (f := .labels) (k := 240) (ka := 241) (kn := 232) (s := c!"n") (n := person) rfl rfl rfl ⟨⟨_, .head _, by decide⟩, by decide, by decide⟩ rfl⟩

example (I : Meaning) (tight : Bool) : ∃ p, projectRun .ascii (symbolicName .ascii 260 c!"n") ⟨261, 262, fun i => 270 + i, [.prop c!"name", .pair c!"sum" sum]⟩ [] = .ok p ∧
    text p.val.visit = c!"n{.name, sum: (a.age + 1)}" ∧
    (Denotes .ascii I tight sum (I.bin .add (I.prop (I.name c!"a") c!"age") (I.num 1)) .atom →
      Denotes .ascii I tight p.val (I.projection c!"n" [.prop c!"name", .entry c!"sum" (I.bin .add (I.prop (I.name c!"a") c!"age") (I.num 1))]) .atom) := by
  refine ⟨_, rfl, by decide +kernel, fun h => ?_⟩
  refine Denotes.projection (kn := 260) (n := c!"n") (g := ⟨261, 262, fun i => 270 + i, [.prop c!"name", .pair c!"sum" sum]⟩) (gs := [])
    (xs := [⟨.prop c!"name", I.null, .atom⟩, ⟨.pair c!"sum" sum, _, .atom⟩]) ⟨⟨_, .head _, by decide⟩, by decide, by decide⟩ ?_ rfl ?_ ?_ rfl
  · intro g hg
    obtain rfl := List.mem_singleton.mp hg
    refine ⟨?_, ?_, ?_⟩
    · simpa [Item.Ok, Good] using ⟨⟨rfl, rfl⟩, fun h => nomatch h⟩
    · simp [Separate, Item.isString]
    · simp [Item.pairKey, List.filterMap]
  · intro x hx
    simp at hx
    rcases hx with rfl | rfl
    · exact .inr ⟨_, .head _, by decide⟩
    · exact ⟨_, .head _, by decide⟩
  · intro x hx v hv
    simp at hx
    rcases hx with rfl | rfl <;> simp [Item.value] at hv
    subst hv
    exact h

end Verif
