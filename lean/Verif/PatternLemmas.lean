import Verif.PatternSpec
import Verif.LexLemmas
import Verif.PropsLexical
import Verif.ExprLemmas
import Verif.OccLemmas

/-
Lemmas for patterns.
-/

namespace Verif
open Spec

/-! ### Readers -/

theorem readSeq_flat (c : Char) (hc : c ≠ '`') (ts : List Str) (fuel : Nat) (rest : Str) (hf : ts.length ≤ fuel)
    (h1 : rest.head? ≠ some '`') (h2 : rest.head? ≠ some c) :
    readSeq c fuel (ts.flatMap (fun t => c :: escapeName t) ++ rest) = some (ts, rest) := by
  induction ts generalizing fuel with
  | nil =>
    cases fuel with
    | zero => simp [readSeq]
    | succ n =>
      cases rest with
      | nil => simp [readSeq]
      | cons d r =>
        have : d ≠ c := by simpa using h2
        simp [readSeq, this]
  | cons t ts ih =>
    cases fuel with
    | zero => simp at hf
    | succ n =>
      have hq : (ts.flatMap (fun t => c :: escapeName t) ++ rest).head? ≠ some '`' := by
        cases ts with
        | nil => simpa using h1
        | cons t' ts => simpa using hc
      have := C02_quoted_round_trip t _ hq
      simp only [List.flatMap_cons, List.cons_append, List.append_assoc, readSeq, if_true]
      rw [this]
      simp [ih n (by simpa using hf)]

theorem length_flatMap_le (c : Char) (ts : List Str) (rest : Str) :
    ts.length ≤ (ts.flatMap (fun t => c :: escapeName t) ++ rest).length := by
  induction ts with
  | nil => simp
  | cons t ts ih => simp only [List.flatMap_cons, List.cons_append, List.length_cons, List.append_assoc, List.length_append] at ih ⊢; omega

theorem readLabels_flat (ts : List Str) (rest : Str) (h1 : rest.head? ≠ some '`') (h2 : rest.head? ≠ some ':') :
    readLabels (ts.flatMap (fun t => ':' :: escapeName t) ++ rest) = some (ts, rest) :=
  readSeq_flat ':' (by decide) ts _ rest (length_flatMap_le _ _ _) h1 h2

theorem filter_ne_nil {ts : List Str} (h : TypesOk ts) (hn : ts ≠ []) : ts.filter (· ≠ []) ≠ [] := by
  rcases h with rfl | ⟨t, ht, h⟩
  · exact absurd rfl hn
  · intro h0
    have : t ∈ ts.filter (· ≠ []) := by simp [ht, h]
    rw [h0] at this
    simp at this

theorem readTypes_text (ts : List Str) (h : TypesOk ts) (rest : Str) (h1 : rest.head? ≠ some '`') (h2 : rest.head? ≠ some ':')
    (h3 : rest.head? ≠ some '|') : readTypes (typesText ts ++ rest) = some (ts.filter (· ≠ []), rest) := by
  unfold typesText
  by_cases hn : ts = []
  · subst hn
    cases rest with
    | nil => simp [readTypes]
    | cons c r =>
      have : c ≠ ':' := by simpa using h2
      simp [readTypes, this]
  · simp only [hn, if_false]
    obtain ⟨t, ts', he⟩ := List.exists_cons_of_ne_nil (filter_ne_nil h hn)
    rw [he]
    simp only [List.map_cons, join_cons]
    have hm : (ts'.map escapeName).flatMap (fun y => c!"|" ++ y) = ts'.flatMap (fun t => '|' :: escapeName t) := by
      simp [List.flatMap_map]
    rw [hm]
    simp only [List.cons_append, readTypes, if_true, List.append_assoc]
    have hq : (ts'.flatMap (fun t => '|' :: escapeName t) ++ rest).head? ≠ some '`' := by
      cases ts' with
      | nil => simpa using h1
      | cons t' ts => simp
    rw [C02_quoted_round_trip t _ hq]
    simp only [Option.bind_eq_bind, Option.bind_some]
    rw [readSeq_flat '|' (by decide) ts' _ rest (length_flatMap_le _ _ _) h1 h3]
    rfl

/-! bounds -/

theorem digitChar_bound (n : Nat) : isBoundChar (digitChar n) = true := by
  simp [isBoundChar, digitVal_digitChar]

theorem digitChar_ne_dot (n : Nat) : digitChar n ≠ '.' := by
  intro h
  have := digitVal_digitChar n
  rw [h] at this
  simp [digitVal] at this

theorem itoa_chars (i : Int) : ∀ c ∈ itoa i, isBoundChar c = true ∧ c ≠ '.' := by
  have hn : ∀ n, ∀ c ∈ natDigits n, isBoundChar c = true ∧ c ≠ '.' := by
    intro n c hc
    obtain ⟨m, rfl⟩ := natDigitsAux_all _ _ c hc
    exact ⟨digitChar_bound m, digitChar_ne_dot m⟩
  cases i with
  | ofNat n => exact hn n
  | negSucc n =>
    intro c hc
    simp only [itoa, List.mem_cons] at hc
    rcases hc with rfl | hc
    · exact ⟨by decide, by decide⟩
    · exact hn _ c hc

theorem itoa_ne_nil (i : Int) : itoa i ≠ [] := by
  cases i with
  | ofNat n => exact natDigits_ne_nil n
  | negSucc n => simp [itoa]

theorem splitDots_eq (a b : Str) (h : ∀ c ∈ a, c ≠ '.') : splitDots (a ++ '.' :: '.' :: b) = some (a, b) := by
  induction a with
  | nil => simp [splitDots]
  | cons c a ih =>
    have hc : c ≠ '.' := h c (by simp)
    rw [List.cons_append, splitDots]
    · simp [ih (fun c hc => h c (by simp [hc]))]
    · intro s hs
      intro h
      exact hc hs

theorem takeWhile_dropWhile (p : Char → Bool) (a rest : Str) (h : ∀ c ∈ a, p c = true) (hr : ∀ c, rest.head? = some c → p c = false) :
    (a ++ rest).takeWhile p = a ∧ (a ++ rest).dropWhile p = rest := by
  induction a with
  | nil =>
    cases rest with
    | nil => simp
    | cons c r => have := hr c rfl; simp [this]
  | cons c a ih =>
    have := h c (by simp)
    have := ih (fun c hc => h c (by simp [hc]))
    simp_all

def optItoa : Option Int → Str
  | some i => itoa i
  | none => []

theorem lengthText_eq (l : LengthV) : lengthText l =
    if l.unbounded then c!"*" else if l.min = none ∧ l.max = none then [] else '*' :: (optItoa l.min ++ '.' :: '.' :: optItoa l.max) := by
  unfold lengthText
  congr 1
  congr 1
  cases l.min <;> cases l.max <;> simp [optItoa]

theorem optItoa_chars (o : Option Int) : ∀ c ∈ optItoa o, isBoundChar c = true ∧ c ≠ '.' := by
  cases o with
  | none => simp [optItoa]
  | some i => exact itoa_chars i

theorem readBound_optItoa (o : Option Int) : readBound (optItoa o) = some o := by
  cases o with
  | none => simp [optItoa, readBound]
  | some i => simp [optItoa, readBound, itoa_ne_nil, readInt_itoa]

def hopsTextOf : Option LengthV → Str
  | some l => lengthText l
  | none => []

/-- The length a stored length stands for. -/
def hopsV : Option LengthV → Hops
  | some l => if l.unbounded then .any else .range l.min l.max
  | none => .one

theorem readHops_text (o : Option LengthV) (ho : ∀ l, o = some l → l.unbounded = true ∨ l.min ≠ none ∨ l.max ≠ none) (rest : Str)
    (hr : rest.head? = some ']' ∨ rest.head? = some ' ') : readHops (hopsTextOf o ++ rest) = some (hopsV o, rest) := by
  have hb : ∀ c, rest.head? = some c → isBoundChar c = false := by
    intro c hc
    rcases hr with h | h <;> (rw [h] at hc; injection hc with hc; subst hc; decide)
  cases o with
  | none =>
    cases rest with
    | nil => simp at hr
    | cons c r =>
      have : c ≠ '*' := by rcases hr with h | h <;> (simp at h; subst h; decide)
      simp [hopsTextOf, readHops, this, hopsV]
  | some l =>
    simp only [hopsTextOf, lengthText_eq, hopsV]
    by_cases hu : l.unbounded = true
    · have := takeWhile_dropWhile isBoundChar [] rest (by simp) hb
      simp only [List.nil_append] at this
      simp [hu, readHops, this, readBounds]
    · have hne : ¬ (l.min = none ∧ l.max = none) := by
        intro h
        rcases ho l rfl with h' | h' | h'
        · exact hu h'
        · exact h' h.1
        · exact h' h.2
      simp only [hu, hne, if_false, Bool.false_eq_true]
      have hch : ∀ c ∈ optItoa l.min ++ '.' :: '.' :: optItoa l.max, isBoundChar c = true := by
        intro c hc
        simp only [List.mem_append, List.mem_cons] at hc
        rcases hc with h | rfl | rfl | h
        · exact (optItoa_chars _ c h).1
        · decide
        · decide
        · exact (optItoa_chars _ c h).1
      have := takeWhile_dropWhile isBoundChar _ rest hch hb
      simp only [List.cons_append, readHops, if_true]
      rw [this.1, this.2, readBounds, splitDots_eq _ _ (fun c hc => (optItoa_chars _ c hc).2)]
      simp [readBound_optItoa]

/-! names -/

theorem special_not_name (u : Unicode) (c : Char) (h : c ∈ [':', '*', ']', ')', ' ']) :
    c ≠ '`' ∧ ¬ isNameStart u c ∧ ¬ isNamePart u c := by
  simp only [List.mem_cons, List.mem_nil_iff, or_false] at h
  have hl : ∀ c : Char, c.toNat < 128 → c.isAlpha = false → c.isDigit = false → c ≠ '_' → ¬ isNameStart u c ∧ ¬ isNamePart u c := by
    intro c h1 h2 h3 h4
    simp [isNameStart, isNamePart, u.letter_ascii c h1, u.digit_ascii c h1, h2, h3, h4]
  rcases h with rfl | rfl | rfl | rfl | rfl <;> exact ⟨by decide, hl _ (by decide) (by decide) (by decide) (by decide)⟩

def nameTextOf (u : Unicode) : Option Str → Str
  | some s => escapeIfNecessary u s
  | none => []

theorem nameText_start (u : Unicode) (s : Str) (h : NotBlank u s) :
    ∃ c r, escapeIfNecessary u s = c :: r ∧ (c = '`' ∨ isNameStart u c) := by
  unfold escapeIfNecessary
  split
  · rename_i hc
    rcases hc with h0 | h0
    · rw [trimSpace_length_zero, List.all_eq_true] at h0
      obtain ⟨c, hc, hs⟩ := h
      have := h0 c hc
      simp_all
    · cases s with
      | nil => simp [isIdentifier] at h0
      | cons c cs =>
        simp only [isIdentifier, Bool.and_eq_true] at h0
        refine ⟨c, cs, rfl, Or.inr ?_⟩
        simpa [identStart, isNameStart] using h0.1
  · exact ⟨'`', _, by simp only [escapeName]; rfl, Or.inl rfl⟩

theorem readOptName_text (u : Unicode) (o : Option Str) (ho : ∀ s, o = some s → NotBlank u s) (rest : Str)
    (hr : ∃ c r, rest = c :: r ∧ c ∈ [':', '*', ']', ')', ' ']) : readOptName u (nameTextOf u o ++ rest) = some (o, rest) := by
  obtain ⟨c, r, rfl, hc⟩ := hr
  have := special_not_name u c hc
  cases o with
  | none => simp [nameTextOf, readOptName, this]
  | some s =>
    have hn := ho s rfl
    have hrt := C03_name_round_trip_partial u s (c :: r) hn (by simpa using this.1) (by simp; exact this.2.2)
    obtain ⟨d, t, he, hd⟩ := nameText_start u s hn
    simp only [nameTextOf]
    rw [he] at hrt ⊢
    simp only [List.cons_append, readOptName, hd, if_true] at hrt ⊢
    rw [hrt]
    rfl

theorem head_types (ts : List Str) : typesText ts = [] ∨ ∃ r, typesText ts = ':' :: r := by
  unfold typesText
  split <;> simp

theorem head_hops (o : Option LengthV) : hopsTextOf o = [] ∨ ∃ r, hopsTextOf o = '*' :: r := by
  cases o with
  | none => simp [hopsTextOf]
  | some l =>
    simp only [hopsTextOf, lengthText_eq]
    split
    · exact Or.inr ⟨[], rfl⟩
    · split <;> simp

/-- What stands in the brackets of a relationship reads back. -/
theorem readRelHead_text (u : Unicode) (name : Option Str) (ts : List Str) (o : Option LengthV) (hn : ∀ s, name = some s → NotBlank u s)
    (ht : TypesOk ts) (ho : ∀ l, o = some l → l.unbounded = true ∨ l.min ≠ none ∨ l.max ≠ none) (rest : Str)
    (hr : rest.head? = some ']' ∨ rest.head? = some ' ') :
    readRelHead u (nameTextOf u name ++ typesText ts ++ hopsTextOf o ++ rest) = some (⟨name, ts.filter (· ≠ []), hopsV o⟩, rest) := by
  obtain ⟨c, r, hcr, hc⟩ : ∃ c r, rest = c :: r ∧ (c = ']' ∨ c = ' ') := by
    cases rest with
    | nil => simp at hr
    | cons c r => exact ⟨c, r, rfl, by simpa using hr⟩
  have hh : ∃ c r, hopsTextOf o ++ rest = c :: r ∧ c ∈ ['*', ']', ' '] := by
    rcases head_hops o with h | ⟨r', h⟩
    · refine ⟨c, r, by rw [h, hcr]; rfl, ?_⟩
      rcases hc with rfl | rfl <;> simp
    · exact ⟨'*', _, by rw [h]; rfl, by simp⟩
  have ht' : ∃ c r, typesText ts ++ (hopsTextOf o ++ rest) = c :: r ∧ c ∈ [':', '*', ']', ')', ' '] := by
    rcases head_types ts with h | ⟨r', h⟩
    · obtain ⟨c, r, hcr, hc⟩ := hh
      refine ⟨c, r, by rw [h, hcr]; rfl, ?_⟩
      simp at hc
      rcases hc with rfl | rfl | rfl <;> simp
    · exact ⟨':', _, by rw [h]; rfl, by simp⟩
  have hty : readTypes (typesText ts ++ (hopsTextOf o ++ rest)) = some (ts.filter (· ≠ []), hopsTextOf o ++ rest) := by
    obtain ⟨c, r, hcr, hc⟩ := hh
    apply readTypes_text ts ht <;>
      (rw [hcr]; simp at hc ⊢; rcases hc with rfl | rfl | rfl <;> decide)
  simp only [readRelHead, List.append_assoc]
  rw [readOptName_text u name hn _ ht']
  simp only [Option.bind_eq_bind, Option.bind_some]
  rw [hty]
  simp only [Option.bind_some]
  rw [readHops_text o ho rest hr]
  rfl

theorem readNodeHead_text (u : Unicode) (name : Option Str) (ls : List Str) (hn : ∀ s, name = some s → NotBlank u s) (rest : Str)
    (hr : rest.head? = some ')' ∨ rest.head? = some ' ') :
    readNodeHead u (nameTextOf u name ++ ls.flatMap (fun t => ':' :: escapeName t) ++ rest) = some (⟨name, ls⟩, rest) := by
  obtain ⟨c, r, hcr, hc⟩ : ∃ c r, rest = c :: r ∧ (c = ')' ∨ c = ' ') := by
    cases rest with
    | nil => simp at hr
    | cons c r => exact ⟨c, r, rfl, by simpa using hr⟩
  have hl : ∃ c r, ls.flatMap (fun t => ':' :: escapeName t) ++ rest = c :: r ∧ c ∈ [':', '*', ']', ')', ' '] := by
    cases ls with
    | nil => refine ⟨c, r, by rw [hcr]; rfl, ?_⟩; rcases hc with rfl | rfl <;> simp
    | cons l ls => exact ⟨':', _, by simp only [List.flatMap_cons, List.cons_append]; rfl, by simp⟩
  simp only [readNodeHead, List.append_assoc]
  rw [readOptName_text u name hn _ hl]
  simp only [Option.bind_eq_bind, Option.bind_some]
  rw [readLabels_flat ls rest]
  · rfl
  · rw [hcr]; rcases hc with rfl | rfl <;> simp
  · rw [hcr]; rcases hc with rfl | rfl <;> simp

/-! ### Relationships -/

theorem getLast?_snoc {α} (xs : List α) (x : α) : (xs ++ [x]).getLast? = some x := by simp

theorem since_snoc (cs : List RelCall) (c : RelCall) : since (cs ++ [c]) = if c.isUnbounded then [] else since cs ++ [c] := by
  unfold since
  cases h : c.isUnbounded <;> simp [h]

/-- What was stored after some calls is what they say. -/
structure RelInv (u : Unicode) (a b : NodeV) (dir : Direction) (types : Option (Key × List Str)) (cs : List RelCall) (r : RelV) : Prop where
  left : r.left = a
  right : r.right = b
  err : r.err = none
  notNil : r.notNil = true
  derr : r.details.err = none
  dir : r.details.dir = dir
  types : r.details.types = types
  name : r.details.name.map (·.2) = nameOf cs
  nameOk : ∀ s, nameOf cs = some s → NotBlank u s
  props : r.details.props.map (·.2) = propsOf cs
  propsOk : ∀ m, propsOf cs = some m → Good m
  lower : r.details.length.bind (·.min) = lowerOf cs
  upper : r.details.length.bind (·.max) = upperOf cs
  hops : hopsV r.details.length = hopsOf cs
  hopsOk : ∀ l, r.details.length = some l → l.unbounded = true ∨ l.min ≠ none ∨ l.max ≠ none

theorem create3_ok {k : Key} {a b : NodeV} {d : DetailsV} (ha : a.err = none) (hd : d.err = none) (hb : b.err = none) :
    RelV.create3 k a d b = { left := a, details := d, right := b, key := k, notNil := true } := by
  simp [RelV.create3, firstErr, ha, hd, hb]

theorem relInv_create {u : Unicode} {k kd kt : Key} {a b : NodeV} {dir : Direction} {types : List Str} (ha : a.err = none) (hb : b.err = none) :
    RelInv u a b dir (if types = [] then none else some (kt, types)) [] (RelV.create k kd kt a dir b types) := by
  rw [RelV.create, create3_ok ha rfl hb]
  constructor <;> simp [nameOf, propsOf, lowerOf, upperOf, since, hopsV, hopsOf]

theorem notBlank_ne_nil {u : Unicode} {s : Str} (h : NotBlank u s) : s ≠ [] := by
  rintro rfl
  obtain ⟨c, hc, _⟩ := h
  simp at hc

theorem hopsOf_snoc (cs : List RelCall) (c : RelCall) : hopsOf (cs ++ [c]) =
    if c.isLength then (if c.isUnbounded then .any else .range (lowerOf (cs ++ [c])) (upperOf (cs ++ [c]))) else hopsOf cs := by
  cases c <;> simp [hopsOf, RelCall.isLength, RelCall.isUnbounded, lowerOf, upperOf, since_snoc, RelCall.lower, RelCall.upper, List.filterMap_append]

theorem relInv_run {u : Unicode} {a b : NodeV} {dir : Direction} {types : Option (Key × List Str)} {cs : List RelCall} {r : RelV}
    (ha : a.err = none) (hb : b.err = none) (h : RelInv u a b dir types cs r) (c : RelCall) (hc : c.Ok u) :
    RelInv u a b dir types (cs ++ [c]) (c.run r) := by
  have hl := h.lower
  have hu := h.upper
  have hn := h.name
  have hno := h.nameOk
  have hp := h.props
  have hpo := h.propsOk
  cases c with
  | named k kn s =>
    have hs : s ≠ [] := notBlank_ne_nil hc
    have : (RelCall.named k kn s).run r = { left := a, details := { dir := dir, name := some (kn, s), types := types, length := r.details.length, props := r.details.props }, right := b, key := k, notNil := true } := by
      simp only [RelCall.run, RelV.named, DetailsV.namedByString, hs, if_false, DetailsV.create, h.left, h.right]
      rw [create3_ok ha rfl hb, h.dir, h.types]
    rw [this]
    constructor <;> simp_all [nameOf, propsOf, lowerOf, upperOf, since_snoc, hopsOf_snoc, RelCall.isLength, RelCall.isUnbounded, RelCall.name, RelCall.props, RelCall.lower, RelCall.upper, List.filterMap_append, RelCall.Ok, h.hops]
    exact h.hopsOk
  | unbounded k kl =>
    have : (RelCall.unbounded k kl).run r = { left := a, details := { dir := dir, name := r.details.name, types := types, length := some { key := kl, unbounded := true }, props := r.details.props }, right := b, key := k, notNil := true } := by
      simp only [RelCall.run, RelV.unbounded, DetailsV.unbounded, DetailsV.create, h.left, h.right]
      rw [create3_ok ha rfl hb, h.dir, h.types]
    rw [this]
    constructor <;> simp_all [nameOf, propsOf, lowerOf, upperOf, since_snoc, hopsOf_snoc, RelCall.isLength, RelCall.isUnbounded, RelCall.name, RelCall.props, RelCall.lower, RelCall.upper, List.filterMap_append, RelCall.Ok, hopsV]
  | min k kl i =>
    have : (RelCall.min k kl i).run r = { left := a, details := { dir := dir, name := r.details.name, types := types, length := some { key := kl, min := some i, max := r.details.length.bind (·.max) }, props := r.details.props }, right := b, key := k, notNil := true } := by
      simp only [RelCall.run, RelV.min, DetailsV.min, DetailsV.create, h.left, h.right]
      rw [create3_ok ha rfl hb, h.dir, h.types]
    rw [this]
    constructor <;> simp_all [nameOf, propsOf, lowerOf, upperOf, since_snoc, hopsOf_snoc, RelCall.isLength, RelCall.isUnbounded, RelCall.name, RelCall.props, RelCall.lower, RelCall.upper, List.filterMap_append, RelCall.Ok, hopsV]
  | max k kl i =>
    have : (RelCall.max k kl i).run r = { left := a, details := { dir := dir, name := r.details.name, types := types, length := some { key := kl, min := r.details.length.bind (·.min), max := some i }, props := r.details.props }, right := b, key := k, notNil := true } := by
      simp only [RelCall.run, RelV.max, DetailsV.max, DetailsV.create, h.left, h.right]
      rw [create3_ok ha rfl hb, h.dir, h.types]
    rw [this]
    constructor <;> simp_all [nameOf, propsOf, lowerOf, upperOf, since_snoc, hopsOf_snoc, RelCall.isLength, RelCall.isUnbounded, RelCall.name, RelCall.props, RelCall.lower, RelCall.upper, List.filterMap_append, RelCall.Ok, hopsV]
  | length k kl kl' i j =>
    have : (RelCall.length k kl kl' i j).run r = { left := a, details := { dir := dir, name := r.details.name, types := types, length := some { key := kl', min := some i, max := some j }, props := r.details.props }, right := b, key := k, notNil := true } := by
      simp only [RelCall.run, RelV.length, DetailsV.min, DetailsV.max, DetailsV.create, h.left, h.right]
      rw [create3_ok ha rfl hb, h.dir, h.types]
      rfl
    rw [this]
    constructor <;> simp_all [nameOf, propsOf, lowerOf, upperOf, since_snoc, hopsOf_snoc, RelCall.isLength, RelCall.isUnbounded, RelCall.name, RelCall.props, RelCall.lower, RelCall.upper, List.filterMap_append, RelCall.Ok, hopsV]
  | withProperties k kp m =>
    have hm : Good m := hc
    have : (RelCall.withProperties k kp m).run r = { left := a, details := { dir := dir, name := r.details.name, types := types, length := r.details.length, props := some (kp, m) }, right := b, key := k, notNil := true } := by
      simp only [RelCall.run, RelV.withProperties, hm.2, hm.1, DetailsV.withProps, DetailsV.create, h.left, h.right]
      simp only [Bool.not_true, Bool.false_and, Bool.false_eq_true, if_false, if_true]
      rw [create3_ok ha rfl hb, h.dir, h.types]
    rw [this]
    constructor <;> simp_all [nameOf, propsOf, lowerOf, upperOf, since_snoc, hopsOf_snoc, RelCall.isLength, RelCall.isUnbounded, RelCall.name, RelCall.props, RelCall.lower, RelCall.upper, List.filterMap_append, RelCall.Ok, h.hops]
    exact h.hopsOk

theorem relInv_calls {u : Unicode} {a b : NodeV} {dir : Direction} {types : Option (Key × List Str)} (ha : a.err = none) (hb : b.err = none)
    (cs0 cs : List RelCall) (hc : ∀ c ∈ cs, c.Ok u) {r : RelV} (h : RelInv u a b dir types cs0 r) :
    RelInv u a b dir types (cs0 ++ cs) (cs.foldl (fun r c => c.run r) r) := by
  induction cs generalizing cs0 r with
  | nil => simpa using h
  | cons c cs ih =>
    have := ih (cs0 ++ [c]) (fun c hc' => hc c (by simp [hc'])) (relInv_run ha hb h c (hc c (by simp)))
    simpa using this

def nameTms (u : Unicode) : Option (Key × Str) → List Tm
  | some (k, s) => [.node k (escapeIfNecessary u s) [] false []]
  | none => []

def typesTms : Option (Key × List Str) → List Tm
  | some (k, ts) => [.node k (typesText ts) [] false []]
  | none => []

def lengthTms : Option LengthV → List Tm
  | some l => [.node l.key (lengthText l) [] false []]
  | none => []

def propsTms : Option (Key × Val) → List Tm
  | some (k, m) => [.node k c!" " [] false [.hole m.visit]]
  | none => []

def detailsTm (u : Unicode) (d : DetailsV) : Tm :=
  .node d.key (d.dir.left ++ (if d.hasContent then c!"[" else [])) ((if d.hasContent then c!"]" else []) ++ d.dir.right) false
    (nameTms u d.name ++ typesTms d.types ++ lengthTms d.length ++ propsTms d.props)

theorem detailsTm_trees (u : Unicode) (d : DetailsV) : (detailsTm u d).trees = d.visit u := by
  simp only [detailsTm, Tm.trees, DetailsV.visit, treesL_append]
  congr 3
  · congr 1
    · congr 1
      · rcases d.name with _ | ⟨k, s⟩ <;> simp [nameTms, nameVisit, Tm.treesL, Tm.trees, leaf]
      · rcases d.types with _ | ⟨k, s⟩ <;> simp [typesTms, typesVisit, Tm.treesL, Tm.trees, leaf]
    · rcases d.length with _ | l <;> simp [lengthTms, lengthVisit, Tm.treesL, Tm.trees, leaf]
  · rcases d.props with _ | ⟨k, s⟩ <;> simp [propsTms, propsVisit, Tm.treesL, Tm.trees]

theorem detailsTm_ok (u : Unicode) (d : DetailsV) : (detailsTm u d).Ok := by
  simp only [detailsTm, Tm.Ok, okL_append]
  refine ⟨⟨⟨?_, ?_⟩, ?_⟩, ?_⟩
  · rcases d.name with _ | ⟨k, s⟩ <;> simp [nameTms, Tm.OkL, Tm.Ok]
  · rcases d.types with _ | ⟨k, s⟩ <;> simp [typesTms, Tm.OkL, Tm.Ok]
  · rcases d.length with _ | l <;> simp [lengthTms, Tm.OkL, Tm.Ok]
  · rcases d.props with _ | ⟨k, s⟩ <;> simp [propsTms, Tm.OkL, Tm.Ok]

def detailsKeys (d : DetailsV) : List Key :=
  d.key :: ((d.name.map (·.1)).toList ++ (d.types.map (·.1)).toList ++ (d.length.map (·.key)).toList ++ (d.props.map (·.1)).toList)

theorem detailsTm_keys (u : Unicode) (d : DetailsV) : (detailsTm u d).keys = detailsKeys d := by
  simp only [detailsTm, Tm.keys, keysL_append, detailsKeys]
  congr 2
  · congr 1
    · congr 1
      · rcases d.name with _ | ⟨k, s⟩ <;> simp [nameTms, Tm.keysL, Tm.keys]
      · rcases d.types with _ | ⟨k, s⟩ <;> simp [typesTms, Tm.keysL, Tm.keys]
    · rcases d.length with _ | l <;> simp [lengthTms, Tm.keysL, Tm.keys]
  · rcases d.props with _ | ⟨k, s⟩ <;> simp [propsTms, Tm.keysL, Tm.keys]

def typesTextO : Option (Key × List Str) → Str
  | some (_, ts) => typesText ts
  | none => []

theorem detailsTm_parts (u : Unicode) (d : DetailsV) (e : Env) : layout e (detailsTm u d).parts =
    layout e ([.lit d.dir.left] ++ (if d.hasContent then
      [.lit c!"[", .lit (nameTextOf u (d.name.map (·.2)) ++ typesTextO d.types ++ hopsTextOf d.length)] ++
        propParts (d.props.map (·.2)) ++ [.lit c!"]"] else []) ++ [.lit d.dir.right]) := by
  rcases d with ⟨dir, name, types, length, props, key, err⟩
  simp only [detailsTm, DetailsV.hasContent]
  rcases name with _ | ⟨kn, s⟩ <;> rcases types with _ | ⟨kt, ts⟩ <;> rcases length with _ | l <;> rcases props with _ | ⟨kp, m⟩ <;>
    simp [nameTms, typesTms, lengthTms, propsTms, Tm.parts, Tm.partsL, layout, layout_append, sepText, nameTextOf, typesTextO, hopsTextOf,
      propParts]

/-- The relationship between the nodes is shown as it was described. -/
theorem details_between {u : Unicode} {a b : NodeV} {dir : Direction} {kt : Key} {types : List Str} {cs : List RelCall} {r : RelV}
    (hd : dir ≠ .none) (ht : TypesOk types)
    (h : RelInv u a b dir (if types = [] then none else some (kt, types)) cs r) :
    ∃ ps, Between u dir ⟨nameOf cs, types.filter (· ≠ []), hopsOf cs⟩ (propsOf cs) ps ∧
      ∀ e, layout e (detailsTm u r.details).parts = layout e ps := by
  refine ⟨_, ⟨nameTextOf u (nameOf cs) ++ typesText types ++ hopsTextOf r.details.length, ?_, rfl⟩, ?_⟩
  · intro rest hr
    rw [readRelHead_text u _ types _ h.nameOk ht h.hopsOk rest hr, h.hops]
  · intro e
    rw [detailsTm_parts]
    have h1 : beforeRel dir = r.details.dir.left := by rw [h.dir]; cases dir <;> first | rfl | exact absurd rfl hd
    have h2 : afterRel dir = r.details.dir.right := by rw [h.dir]; cases dir <;> first | rfl | exact absurd rfl hd
    have h3 : typesTextO r.details.types = typesText types := by
      rw [h.types]
      by_cases h0 : types = []
      · simp [h0, typesTextO, typesText]
      · simp [h0, typesTextO]
    have h4 : ((⟨nameOf cs, types.filter (· ≠ []), hopsOf cs⟩ : RelHead) = ⟨none, [], .one⟩ ∧ (propsOf cs).isNone = true) ↔
        r.details.hasContent = false := by
      rw [DetailsV.hasContent, ← h.name, ← h.props, ← h.hops, h.types]
      have h5 : types.filter (· ≠ []) = [] ↔ types = [] := by
        refine ⟨fun h0 => Classical.byContradiction fun hn => filter_ne_nil ht hn h0, ?_⟩
        rintro rfl
        rfl
      have h6 : hopsV r.details.length = .one ↔ r.details.length = none := by
        rcases r.details.length with _ | l
        · simp [hopsV]
        · simp only [hopsV, reduceCtorEq, iff_false]
          split <;> simp
      simp only [RelHead.mk.injEq, h5, h6]
      by_cases h0 : types = [] <;> rcases r.details.name with _ | ⟨kn, s⟩ <;> rcases r.details.props with _ | ⟨kp, m⟩ <;>
        rcases r.details.length with _ | l <;> simp [h0]
    rw [h1, h2, h3, h.name, h.props]
    by_cases hc : r.details.hasContent = true
    · rw [if_pos hc, if_neg (by rw [h4]; simp [hc])]
    · rw [if_neg hc, if_pos (by rw [h4]; simpa using hc)]

theorem relKeys_eq (r : RelV) : relKeys r = r.key :: detailsKeys r.details := by simp [relKeys, detailsKeys]

def relTm (u : Unicode) (r : RelV) : Tm := .node r.key [] [] false [.hole (r.left.visit u), detailsTm u r.details, .hole (r.right.visit u)]

theorem relTm_trees (u : Unicode) (r : RelV) : (relTm u r).trees = r.visit u := by
  simp [relTm, Tm.trees, Tm.treesL, detailsTm_trees, RelV.visit]

theorem rel_shown {e : Env} {u : Unicode} {r : RelV} {ps : List Part} (ha : NoAlias e (relKeys r) (r.visit u))
    (hp : ∀ e, layout e (detailsTm u r.details).parts = layout e ps) :
    shownAs e (r.visit u) = layout e ([.hole (r.left.visit u)] ++ ps ++ [.hole (r.right.visit u)]) := by
  refine shown_self (relTm u r) (relTm_trees u r).symm ?_ ?_ ?_
  · simp [relTm, Tm.Ok, Tm.OkL, detailsTm_ok]
  · intro k hk
    apply ha
    rw [relKeys_eq]
    simpa [relTm, Tm.keys, Tm.keysL, detailsTm_keys] using hk
  · simp [relTm, Tm.parts, Tm.partsL, layout, sepText, layout_append, hp]

/-! ### Chains -/

def typesV (s : Step) : Option (Key × List Str) := if s.types = [] then none else some (s.kt, s.types)

/-- The relationships of a chain are those of the steps. -/
def RelsOk (u : Unicode) : NodeV → List Step → List RelV → Prop
  | _, [], [] => True
  | n, s :: ss, r :: rs => RelInv u n s.node s.dir (typesV s) s.calls r ∧ RelsOk u s.node ss rs
  | _, _, _ => False

def lastNode : NodeV → List Step → NodeV
  | n, [] => n
  | _, s :: ss => lastNode s.node ss

theorem lastNode_snoc (n : NodeV) (ss : List Step) (s : Step) : lastNode n (ss ++ [s]) = s.node := by
  induction ss generalizing n with
  | nil => rfl
  | cons t ts ih => simp [lastNode, ih]

theorem relsOk_snoc (u : Unicode) (n : NodeV) (ss : List Step) (s : Step) (rs : List RelV) (r : RelV) (h : RelsOk u n ss rs)
    (hr : RelInv u (lastNode n ss) s.node s.dir (typesV s) s.calls r) : RelsOk u n (ss ++ [s]) (rs ++ [r]) := by
  induction ss generalizing n rs with
  | nil =>
    cases rs with
    | nil => exact ⟨hr, trivial⟩
    | cons _ _ => exact h.elim
  | cons t ts ih =>
    cases rs with
    | nil => exact h.elim
    | cons r' rs => exact ⟨h.1, ih t.node rs h.2 hr⟩

theorem relsOk_last {u : Unicode} {n : NodeV} {ss : List Step} {rs : List RelV} (h : RelsOk u n ss rs) (hne : ss ≠ []) :
    ∃ r, rs.getLast? = some r ∧ r.right = lastNode n ss := by
  induction ss generalizing n rs with
  | nil => exact absurd rfl hne
  | cons t ts ih =>
    cases rs with
    | nil => exact h.elim
    | cons r rs =>
      cases ts with
      | nil =>
        cases rs with
        | nil => exact ⟨r, rfl, h.1.right⟩
        | cons _ _ => exact h.2.elim
      | cons t' ts =>
        obtain ⟨r', h1, h2⟩ := ih h.2 (by simp)
        refine ⟨r', ?_, h2⟩
        cases rs with
        | nil => simp at h1
        | cons _ _ => simpa using h1

theorem change_ok (cs : List RelCall) (c : ChainV) (rs : List RelV) (r : RelV) (h : c.rels = rs ++ [r]) :
    cs.foldl (fun c call => c.bind fun c => c.changeLast fun r => .ok (call.run r)) (Outcome.ok c) =
      .ok { c with rels := rs ++ [cs.foldl (fun r c => c.run r) r] } := by
  induction cs generalizing c r with
  | nil => simp [← h]
  | cons x xs ih =>
    have : c.changeLast (fun r => .ok (x.run r)) = .ok { c with rels := rs ++ [x.run r] } := by
      simp [ChainV.changeLast, h, Outcome.map]
    have h2 := ih { c with rels := rs ++ [x.run r] } (x.run r) rfl
    rw [← this] at h2
    exact h2

theorem step_extend {u : Unicode} {n : NodeV} {ss : List Step} {c : ChainV} (h : RelsOk u n ss c.rels) (hne : ss ≠ []) (hn : (lastNode n ss).err = none)
    (s : Step) (hs : s.Ok u) : ∃ c', s.change ((Outcome.ok c).bind fun c => c.extend s.k s.kd s.kt s.dir s.node s.types) = .ok c' ∧
      c'.err = c.err ∧ c'.notNil = c.notNil ∧ RelsOk u n (ss ++ [s]) c'.rels := by
  obtain ⟨r, h1, h2⟩ := relsOk_last h hne
  have he : c.extend s.k s.kd s.kt s.dir s.node s.types =
      .ok { c with rels := c.rels ++ [RelV.create s.k s.kd s.kt (lastNode n ss) s.dir s.node s.types] } := by
    simp [ChainV.extend, h1, h2]
  simp only [Step.change, Outcome.bind, he]
  have := change_ok s.calls { c with rels := c.rels ++ [RelV.create s.k s.kd s.kt (lastNode n ss) s.dir s.node s.types] } _ _ rfl
  refine ⟨_, this, rfl, rfl, ?_⟩
  apply relsOk_snoc u n ss s c.rels _ h
  have := relInv_calls hn hs.1 [] s.calls hs.2.2.2 (relInv_create (u := u) (k := s.k) (kd := s.kd) (kt := s.kt) (dir := s.dir) (types := s.types) hn hs.1)
  simpa [typesV] using this

theorem first_inv {u : Unicode} {n : NodeV} (hn : n.err = none) {s : Step} (hs : s.Ok u) :
    RelInv u n s.node s.dir (typesV s) s.calls (s.first n) := by
  have := relInv_calls hn hs.1 [] s.calls hs.2.2.2 (relInv_create (u := u) (k := s.k) (kd := s.kd) (kt := s.kt) (dir := s.dir) (types := s.types) hn hs.1)
  simpa [typesV, Step.first] using this

theorem chainRun_ok {u : Unicode} {n : NodeV} (hn : n.err = none) {s t : Step} (more : List Step) (hs : s.Ok u) (ht : t.Ok u)
    (hm : ∀ x ∈ more, x.Ok u) :
    ∃ c, chainRun n s t more = .ok c ∧ c.err = none ∧ c.notNil = true ∧ RelsOk u n (s :: t :: more) c.rels := by
  have h2 : ∃ c, t.change (.ok (ChainV.start (s.first n) t.k t.kd t.kt t.dir t.node t.types)) = .ok c ∧ c.err = none ∧ c.notNil = true ∧
      RelsOk u n [s, t] c.rels := by
    have hf := first_inv hn hs
    have hstart : ChainV.start (s.first n) t.k t.kd t.kt t.dir t.node t.types =
        { rels := [s.first n] ++ [RelV.create t.k t.kd t.kt s.node t.dir t.node t.types], notNil := true } := by
      simp [ChainV.start, hf.right]
    have h := change_ok t.calls _ _ _ (congrArg ChainV.rels hstart)
    refine ⟨_, h, by rw [hstart], by rw [hstart], hf, ?_, trivial⟩
    have := relInv_calls hs.1 ht.1 [] t.calls ht.2.2.2 (relInv_create (u := u) (k := t.k) (kd := t.kd) (kt := t.kt) (dir := t.dir) (types := t.types) hs.1 ht.1)
    simpa [typesV] using this
  obtain ⟨c, hc, he, hnn, hr⟩ := h2
  unfold chainRun
  rw [hc]
  suffices h : ∀ (more ss : List Step) (c : ChainV), (∀ x ∈ more, x.Ok u) → ss ≠ [] → (lastNode n ss).err = none → c.err = none → c.notNil = true →
      RelsOk u n ss c.rels → ∃ c', more.foldl (fun c s => s.change (c.bind fun c => c.extend s.k s.kd s.kt s.dir s.node s.types)) (.ok c) = .ok c' ∧
        c'.err = none ∧ c'.notNil = true ∧ RelsOk u n (ss ++ more) c'.rels from
    h more [s, t] c hm (by simp) ht.1 he hnn hr
  intro more
  induction more with
  | nil => intro ss c _ _ _ h1 h2 h3; exact ⟨c, rfl, h1, h2, by simpa using h3⟩
  | cons x xs ih =>
    intro ss c hx hne hl h1 h2 h3
    obtain ⟨c', hc', he', hn', hr'⟩ := step_extend h3 hne hl x (hx x (by simp))
    rw [List.foldl_cons, hc']
    have := ih (ss ++ [x]) c' (fun y hy => hx y (by simp [hy])) (by simp) (by rw [lastNode_snoc]; exact (hx x (by simp)).1) (he'.trans h1) (hn'.trans h2) hr'
    simpa using this

def chainTms (u : Unicode) (rs : List RelV) : List Tm := rs.flatMap fun r => [.hole (r.left.visit u), detailsTm u r.details]

theorem chainTms_trees (u : Unicode) (rs : List RelV) :
    Tm.treesL (chainTms u rs) = rs.flatMap fun r => r.left.visit u ++ r.details.visit u := by
  induction rs with
  | nil => rfl
  | cons r rs ih =>
    simp only [chainTms, List.flatMap_cons, treesL_append] at ih ⊢
    rw [ih]
    simp [Tm.treesL, Tm.trees, detailsTm_trees]

theorem chainTms_ok (u : Unicode) (rs : List RelV) : Tm.OkL false (chainTms u rs) := by
  induction rs with
  | nil => simp [chainTms, Tm.OkL]
  | cons r rs ih =>
    simp only [chainTms, List.flatMap_cons, okL_append] at ih ⊢
    exact ⟨by simp [Tm.OkL, Tm.Ok, detailsTm_ok], ih⟩

theorem chainTms_keys (u : Unicode) (rs : List RelV) : Tm.keysL (chainTms u rs) = rs.flatMap fun r => (relKeys r).tail := by
  induction rs with
  | nil => rfl
  | cons r rs ih =>
    simp only [chainTms, List.flatMap_cons, keysL_append] at ih ⊢
    rw [ih]
    simp [Tm.keysL, Tm.keys, detailsTm_keys, relKeys_eq]

theorem chainTms_parts {u : Unicode} {n : NodeV} {ss : List Step} {rs : List RelV} (h : RelsOk u n ss rs) (hs : ∀ s ∈ ss, s.Ok u) :
    ∃ ps, ChainParts u ss ps ∧ ∀ (b : Bool) (e : Env),
      layout e (Tm.partsL false b (chainTms u rs ++ [.hole ((lastNode n ss).visit u)])) = layout e (.hole (n.visit u) :: ps) := by
  induction ss generalizing n rs with
  | nil =>
    cases rs with
    | cons _ _ => exact h.elim
    | nil => exact ⟨[], .nil, fun b e => by simp [chainTms, Tm.partsL, Tm.parts, layout, sepText, lastNode]⟩
  | cons s ss ih =>
    cases rs with
    | nil => exact h.elim
    | cons r rs =>
      obtain ⟨hr, hrest⟩ := h
      have hok := hs s (by simp)
      obtain ⟨ps, hb, hl⟩ := details_between hok.2.1 hok.2.2.1 hr
      obtain ⟨qs, hq, hl'⟩ := ih hrest (fun x hx => hs x (by simp [hx]))
      refine ⟨_, .cons hb hq, fun b e => ?_⟩
      have : chainTms u (r :: rs) ++ [Tm.hole ((lastNode n (s :: ss)).visit u)] =
          .hole (n.visit u) :: detailsTm u r.details :: (chainTms u rs ++ [.hole ((lastNode s.node ss).visit u)]) := by
        simp [chainTms, hr.left, lastNode]
      rw [this]
      simp [Tm.partsL, Tm.parts, layout, sepText, layout_append, hl, hl']

theorem chain_shown {e : Env} {u : Unicode} {n : NodeV} {ss : List Step} {c : ChainV} (h : RelsOk u n ss c.rels) (hne : ss ≠ [])
    (hs : ∀ s ∈ ss, s.Ok u) (hl : (lastNode n ss).notNil = true) (ha : NoAlias e (chainKeys c) (c.visit u)) :
    ∃ ps, ChainParts u ss ps ∧ shownAs e (c.visit u) = layout e (.hole (n.visit u) :: ps) := by
  obtain ⟨ps, hp, hlay⟩ := chainTms_parts h hs
  obtain ⟨r, hr1, hr2⟩ := relsOk_last h hne
  refine ⟨ps, hp, ?_⟩
  refine shown_self (.node 0 [] [] false (chainTms u c.rels ++ [.hole ((lastNode n ss).visit u)])) ?_ ?_ ?_ ?_
  · simp [Tm.trees, treesL_append, chainTms_trees, Tm.treesL, ChainV.visit, hr1, ChainV.lastVisit, hr2, hl]
  · simp [Tm.Ok, okL_append, chainTms_ok, Tm.OkL]
  · intro k hk
    apply ha
    simpa [Tm.keys, keysL_append, chainTms_keys, chainKeys, Tm.keysL] using hk
  · simp [Tm.parts, layout, layout_append, hlay]

/-! ### Nodes -/

def labelTms (ls : List (Key × Str)) : List Tm := ls.map fun l => .node l.1 (labelText l.2) [] false []

theorem labelTms_trees (ls : List (Key × Str)) : Tm.treesL (labelTms ls) = ls.map labelVisit := by
  induction ls with
  | nil => rfl
  | cons l ls ih =>
    simp only [labelTms, List.map_cons, Tm.treesL] at ih ⊢
    rw [ih]
    simp [Tm.trees, Tm.treesL, labelVisit, leaf]

theorem labelTms_ok (ls : List (Key × Str)) : Tm.OkL false (labelTms ls) := by
  induction ls with
  | nil => simp [labelTms, Tm.OkL]
  | cons l ls ih => simpa [labelTms, Tm.OkL, Tm.Ok] using ih

theorem labelTms_keys (ls : List (Key × Str)) : Tm.keysL (labelTms ls) = ls.map (·.1) := by
  induction ls with
  | nil => rfl
  | cons l ls ih =>
    simp only [labelTms, List.map_cons, Tm.keysL] at ih ⊢
    rw [ih]
    simp [Tm.keys, Tm.keysL]

theorem labelTms_parts (ls : List (Key × Str)) (b : Bool) (e : Env) (ps : List Part) : layout e (Tm.partsL false b (labelTms ls) ++ ps) =
    layout e (.lit (((ls.map (·.2)).filter (· ≠ [])).flatMap fun t => ':' :: escapeName t) :: ps) := by
  induction ls generalizing b with
  | nil => simp [labelTms, Tm.partsL, layout]
  | cons l ls ih =>
    have ih' := ih false
    simp only [labelTms, List.map_cons, Tm.partsL, Tm.parts] at ih' ⊢
    simp only [List.cons_append, List.nil_append, layout, ih', sepText, List.append_assoc]
    by_cases h : l.2 = [] <;> simp [h, labelText]

def nodeTms (u : Unicode) (n : NodeV) : List Tm := nameTms u n.name ++ labelTms n.labels ++ propsTms n.props

theorem nameTms_trees (u : Unicode) (o : Option (Key × Str)) : Tm.treesL (nameTms u o) = nameVisit u o := by
  rcases o with _ | ⟨k, s⟩ <;> simp [nameTms, nameVisit, Tm.treesL, Tm.trees, leaf]

theorem propsTms_trees (o : Option (Key × Val)) : Tm.treesL (propsTms o) = propsVisit o := by
  rcases o with _ | ⟨k, s⟩ <;> simp [propsTms, propsVisit, Tm.treesL, Tm.trees]

theorem nodeTms_trees (u : Unicode) (n : NodeV) : Tm.treesL (nodeTms u n) = nameVisit u n.name ++ n.labels.map labelVisit ++ propsVisit n.props := by
  simp [nodeTms, treesL_append, nameTms_trees, labelTms_trees, propsTms_trees]

theorem nodeTms_ok (u : Unicode) (n : NodeV) : Tm.OkL false (nodeTms u n) := by
  simp only [nodeTms, okL_append]
  refine ⟨⟨?_, labelTms_ok _⟩, ?_⟩
  · rcases n.name with _ | ⟨k, s⟩ <;> simp [nameTms, Tm.OkL, Tm.Ok]
  · rcases n.props with _ | ⟨k, s⟩ <;> simp [propsTms, Tm.OkL, Tm.Ok]

theorem nodeTms_keys (u : Unicode) (n : NodeV) : n.key :: Tm.keysL (nodeTms u n) = nodeKeys n := by
  simp only [nodeTms, keysL_append, labelTms_keys, nodeKeys]
  congr 2
  · congr 1
    rcases n.name with _ | ⟨k, s⟩ <;> simp [nameTms, Tm.keysL, Tm.keys]
  · rcases n.props with _ | ⟨k, s⟩ <;> simp [propsTms, Tm.keysL, Tm.keys]

theorem nodeTms_parts (u : Unicode) (n : NodeV) (e : Env) (ps : List Part) : layout e (Tm.partsL false true (nodeTms u n) ++ ps) =
    layout e (.lit (nameTextOf u (n.name.map (·.2)) ++ ((n.labels.map (·.2)).filter (· ≠ [])).flatMap fun t => ':' :: escapeName t) ::
      (propParts (n.props.map (·.2)) ++ ps)) := by
  simp only [nodeTms, partsL_append]
  have h1 : ∀ e qs, layout e (Tm.partsL false true (nameTms u n.name) ++ qs) = layout e (.lit (nameTextOf u (n.name.map (·.2))) :: qs) := by
    intro e qs
    rcases n.name with _ | ⟨k, s⟩ <;> simp [nameTms, Tm.partsL, Tm.parts, layout, sepText, nameTextOf]
  have h2 : ∀ e qs, layout e (Tm.partsL false true (propsTms n.props) ++ qs) = layout e (propParts (n.props.map (·.2)) ++ qs) := by
    intro e qs
    rcases n.props with _ | ⟨k, s⟩ <;> simp [propsTms, Tm.partsL, Tm.parts, layout, sepText, propParts]
  rw [List.append_assoc, List.append_assoc, h1]
  simp only [layout]
  rw [labelTms_parts]
  simp only [layout]
  rw [h2]
  simp

theorem node_shown {e : Env} {u : Unicode} {n : NodeV} (ha : NoAlias e (nodeKeys n) (n.visit u)) (hv : n.name = none ∨ e.vis n.key = false) :
    shownAs e (n.visit u) = layout (mark e n.key (n.name.map (·.2))) ([.lit c!"(",
      .lit (nameTextOf u (n.name.map (·.2)) ++ ((n.labels.map (·.2)).filter (· ≠ [])).flatMap fun t => ':' :: escapeName t)] ++
      propParts (n.props.map (·.2)) ++ [.lit c!")"]) := by
  have hk : e.al n.key = none := (ha n.key (by simp [nodeKeys])).1
  have hsh : shown e ⟨n.key, .node (n.name.map (·.2))⟩ = .full c!"(" c!")" := by
    rcases hv with h | h
    · simp [shown, hk, h]
    · simp only [shown, hk]
      rcases n.name with _ | ⟨k, s⟩ <;> simp [h]
  have hde : described e ⟨n.key, .node (n.name.map (·.2))⟩ = mark e n.key (n.name.map (·.2)) := by
    rcases n.name with _ | ⟨k, s⟩ <;> simp [described, mark]
  have hal : ∀ k, (mark e n.key (n.name.map (·.2))).al k = e.al k := by
    intro k
    rcases n.name with _ | ⟨k, s⟩ <;> simp [mark]
  have hlay := Tm.layoutL (mark e n.key (n.name.map (·.2))) false true (nodeTms u n) (nodeTms_ok u n) (by
    intro k hk
    have := ha k (by rw [← nodeTms_keys u n]; exact List.mem_cons_of_mem _ hk)
    rw [hal]
    refine ⟨this.1, ?_⟩
    rw [nodeTms_trees]
    simpa [NodeV.visit, dkeysL, dkeys, Vis.asAlias] using this.2)
  rw [nodeTms_trees] at hlay
  show denL false true e (n.visit u) = _
  simp only [NodeV.visit, denL, den, hsh, hde, Kind.isSub]
  rw [hlay]
  have hp := nodeTms_parts u n (mark e n.key (n.name.map (·.2))) []
  simp only [List.append_nil] at hp
  rw [hp]
  simp [layout, layout_append, sepText, defined, Vis.asAlias]

/-- What was stored after some calls is what they say. -/
structure NodeInv (u : Unicode) (labels : List Str) (cp : Option Val) (cs : List NodeCall) (n : NodeV) : Prop where
  err : n.err = none
  labels : n.labels.map (·.2) = labels
  name : n.name.map (·.2) = (cs.filterMap NodeCall.name).getLast?
  nameOk : ∀ s, (cs.filterMap NodeCall.name).getLast? = some s → NotBlank u s
  props : n.props.map (·.2) = (cp.toList ++ cs.filterMap NodeCall.props).getLast?

theorem nodeInv_ctor (u : Unicode) (c : NodeCtor) (h : c.Ok) : NodeInv u c.labels c.props [] c.run := by
  cases c with
  | anyNode => constructor <;> simp [NodeCtor.run, NodeV.any, NodeCtor.labels, NodeCtor.props]
  | aNode k kl l =>
    have : l ≠ [] := by
      have := h.1
      simp only [NodeCtor.labels, List.mem_singleton] at this
      exact fun h => this h.symm
    constructor <;> simp [NodeCtor.run, NodeV.create2, NodeCtor.labels, NodeCtor.props, this]
  | withLabels l ls =>
    constructor <;> simp [NodeCtor.run, NodeV.newWithLabels, NodeCtor.labels, NodeCtor.props, Function.comp_def]
  | create3 k ks l ls =>
    have h1 := h.1
    simp only [NodeCtor.labels, List.mem_cons, not_or] at h1
    have hl : l ≠ [] := fun h => h1.1 h.symm
    have : ∀ n, (ls.zipIdx n).map Prod.fst = ls := fun n => by simp
    constructor <;> simp [NodeCtor.run, NodeV.create3, NodeCtor.labels, NodeCtor.props, hl, h1.2, Function.comp_def]
  | withProperties k kp ks l m ls =>
    have h1 := h.1
    simp only [NodeCtor.labels, List.mem_cons, not_or] at h1
    have hl : l ≠ [] := fun h => h1.1 h.symm
    have hm : m.err = none := h.2 m rfl
    have : ∀ n, (ls.zipIdx n).map Prod.fst = ls := fun n => by simp
    constructor <;> simp [NodeCtor.run, NodeV.create5, NodeV.create1, NodeV.propsOf, NodeCtor.labels, NodeCtor.props, hl, h1.2, hm, Function.comp_def]

theorem nodeInv_run {u : Unicode} {labels : List Str} {cp : Option Val} {cs : List NodeCall} {n : NodeV} (h : NodeInv u labels cp cs n)
    (c : NodeCall) (hc : c.Ok u) : NodeInv u labels cp (cs ++ [c]) (c.run n) := by
  obtain ⟨h1, h2, h3, h4, h5⟩ := h
  cases c with
  | named k s =>
    have hs : s ≠ [] := notBlank_ne_nil hc
    constructor <;> simp_all [NodeCall.run, NodeV.namedByString, NodeCall.name, NodeCall.props, NodeCall.Ok, List.filterMap_append]
  | withProperties k kp m =>
    have hm : m.err = none := hc
    constructor <;> simp_all [NodeCall.run, NodeV.withProperties, NodeV.propsOf, NodeCall.name, NodeCall.props, List.filterMap_append]

theorem nodeInv_desc {u : Unicode} {d : NodeDesc} (h : d.Ok u) : NodeInv u d.ctor.labels d.ctor.props d.calls d.run := by
  suffices hh : ∀ (cs cs0 : List NodeCall) (n : NodeV), (∀ c ∈ cs, c.Ok u) → NodeInv u d.ctor.labels d.ctor.props cs0 n →
      NodeInv u d.ctor.labels d.ctor.props (cs0 ++ cs) (cs.foldl (fun n c => c.run n) n) by
    simpa [NodeDesc.run] using hh d.calls [] _ h.2 (nodeInv_ctor u d.ctor h.1)
  intro cs
  induction cs with
  | nil => intro cs0 n _ h; simpa using h
  | cons c cs ih =>
    intro cs0 n hc h
    have := ih (cs0 ++ [c]) (c.run n) (fun c hc' => hc c (by simp [hc'])) (nodeInv_run h c (hc c (by simp)))
    simpa using this

end Verif
