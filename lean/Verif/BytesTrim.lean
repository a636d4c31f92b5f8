import Verif.BytesLemmas

/-
`strings.TrimSpace` on bytes.
-/

namespace Verif
namespace Bytes
variable {u : Unicode}

/-! ### From the left -/

theorem trimLeftAux_fuel : ∀ (n m : Nat) (s : Bytes), s.length ≤ n → s.length ≤ m → trimLeftAux u n s = trimLeftAux u m s
  | 0, m, s, h, _ => by
    obtain rfl := List.length_eq_zero_iff.1 (Nat.le_zero.1 h)
    cases m <;> rfl
  | n + 1, 0, s, _, h => by
    obtain rfl := List.length_eq_zero_iff.1 (Nat.le_zero.1 h)
    rfl
  | n + 1, m + 1, [], _, _ => rfl
  | n + 1, m + 1, b :: t, h, h' => by
    have := decode_width_pos (s := b :: t) (by simp)
    simp only [trimLeftAux]
    rw [trimLeftAux_fuel n m _ (by simp only [List.length_drop]; omega) (by simp only [List.length_drop]; omega)]

theorem trimLeftFunc_of_ne_nil {s : Bytes} (h : s ≠ []) :
    trimLeftFunc u s = if u.isSpace (decode s).1 then trimLeftFunc u (s.drop (decode s).2) else s := by
  cases s with
  | nil => exact absurd rfl h
  | cons b t =>
    have := decode_width_pos (s := b :: t) (by simp)
    simp only [trimLeftFunc, List.length_cons, trimLeftAux]
    rw [trimLeftAux_fuel t.length _ _ (by simp only [List.length_drop, List.length_cons]; omega) (Nat.le_refl _)]

theorem trimLeftFunc_encode (s : Str) : trimLeftFunc u (encode s) = encode (s.dropWhile u.isSpace) := by
  induction s with
  | nil => rfl
  | cons c s ih =>
    rw [encode_cons, trimLeftFunc_of_ne_nil (by simp), decode_encode]
    simp only [List.drop_left, List.dropWhile_cons]
    split
    · exact ih
    · rfl

theorem trimLeftFunc_all : ∀ (n : Nat) (s : Bytes), s.length ≤ n → trimLeftFunc u s = [] → ∀ c ∈ runes s, u.isSpace c = true
  | _, [], _, _ => by simp [runes_nil]
  | 0, b :: t, h, _ => by simp at h
  | n + 1, b :: t, h, ht => by
    rw [trimLeftFunc_of_ne_nil (by simp)] at ht
    rw [runes_of_ne_nil (by simp)]
    have := decode_width_pos (s := b :: t) (by simp)
    split at ht
    · rename_i hsp
      have hl : ((b :: t).drop (decode (b :: t)).2).length ≤ n := by simp only [List.length_drop]; omega
      intro c hc
      rcases List.mem_cons.1 hc with rfl | hc
      · exact hsp
      · exact trimLeftFunc_all n _ hl ht c hc
    · cases ht

theorem trimLeftFunc_head : ∀ (n : Nat) (s : Bytes), s.length ≤ n → trimLeftFunc u s ≠ [] → u.isSpace (decode (trimLeftFunc u s)).1 = false
  | _, [], _, h => absurd rfl h
  | 0, b :: t, h, _ => by simp at h
  | n + 1, b :: t, h, ht => by
    rw [trimLeftFunc_of_ne_nil (by simp)] at ht ⊢
    have := decode_width_pos (s := b :: t) (by simp)
    split
    · rename_i hsp
      rw [if_pos hsp] at ht
      exact trimLeftFunc_head n _ (by simp only [List.length_drop]; omega) ht
    · rename_i hsp
      simpa using hsp

/-! ### From the right -/

theorem exists_snoc {α} (l : List α) (h : l ≠ []) : ∃ i a, l = i ++ [a] := ⟨l.dropLast, l.getLast h, (List.dropLast_concat_getLast h).symm⟩

theorem lastIndexAux_encode (s : Bytes) (a : Str) (c : Char) (hc : u.isSpace c = false) : ∀ (n : Nat) (sp : Str) (fuel i : Nat), sp.length ≤ n →
    (∀ d ∈ sp, u.isSpace d = true) → s.take i = encode (a ++ [c] ++ sp) → i = (encode (a ++ [c] ++ sp)).length → i ≤ fuel →
    lastIndexAux u s fuel i = some (encode a).length := by
  intro n
  induction n with
  | zero =>
    intro sp fuel i hn _ ht hi hf
    obtain rfl := List.length_eq_zero_iff.1 (Nat.le_zero.1 hn)
    rw [List.append_nil, encode_append, show encode [c] = String.utf8EncodeChar c by simp [encode]] at ht hi
    have := List.length_pos_iff.2 (encodeChar_ne_nil c)
    rw [List.length_append] at hi
    obtain ⟨f, rfl⟩ : ∃ f, fuel = f + 1 := ⟨fuel - 1, by omega⟩
    obtain ⟨j, rfl⟩ : ∃ j, i = j + 1 := ⟨i - 1, by omega⟩
    rw [lastIndexAux, ht, decodeLast_encode]
    simp only [hc, Bool.false_eq_true, if_false]
    rw [hi]; simp
    exact fun h => absurd h (by omega)
  | succ n ih =>
    intro sp fuel i hn hsp ht hi hf
    by_cases hnil : sp = []
    · exact ih sp fuel i (by simp [hnil]) hsp ht hi hf
    · obtain ⟨sp', d, rfl⟩ := exists_snoc sp hnil
      rw [← List.append_assoc, encode_append, show encode [d] = String.utf8EncodeChar d by simp [encode]] at ht hi
      have := List.length_pos_iff.2 (encodeChar_ne_nil d)
      rw [List.length_append] at hi
      obtain ⟨f, rfl⟩ : ∃ f, fuel = f + 1 := ⟨fuel - 1, by omega⟩
      obtain ⟨j, rfl⟩ : ∃ j, i = j + 1 := ⟨i - 1, by omega⟩
      rw [lastIndexAux, ht, decodeLast_encode]
      · simp only [hsp d (by simp), if_true]
        have he : j + 1 - (String.utf8EncodeChar d).length = (encode (a ++ [c] ++ sp')).length := by omega
        refine ih sp' f _ (by simp at hn; omega) (fun x hx => hsp x (by simp [hx])) ?_ he (by omega)
        have := congrArg (List.take (encode (a ++ [c] ++ sp')).length) ht
        rw [List.take_left, List.take_take] at this
        rw [Nat.min_eq_left (by omega)] at this
        rw [he, this]
      · intro h; omega

theorem lastIndexAux_spaces (s : Bytes) : ∀ (n : Nat) (sp : Str) (fuel i : Nat), sp.length ≤ n →
    (∀ d ∈ sp, u.isSpace d = true) → s.take i = encode sp → i = (encode sp).length → i ≤ fuel → lastIndexAux u s fuel i = none := by
  intro n
  induction n with
  | zero =>
    intro sp fuel i hn _ ht hi hf
    obtain rfl := List.length_eq_zero_iff.1 (Nat.le_zero.1 hn)
    subst hi
    cases fuel <;> rfl
  | succ n ih =>
    intro sp fuel i hn hsp ht hi hf
    by_cases hnil : sp = []
    · exact ih sp fuel i (by simp [hnil]) hsp ht hi hf
    · obtain ⟨sp', d, rfl⟩ := exists_snoc sp hnil
      rw [encode_append, show encode [d] = String.utf8EncodeChar d by simp [encode]] at ht hi
      have := List.length_pos_iff.2 (encodeChar_ne_nil d)
      rw [List.length_append] at hi
      obtain ⟨f, rfl⟩ : ∃ f, fuel = f + 1 := ⟨fuel - 1, by omega⟩
      obtain ⟨j, rfl⟩ : ∃ j, i = j + 1 := ⟨i - 1, by omega⟩
      rw [lastIndexAux, ht, decodeLast_encode]
      · simp only [hsp d (by simp), if_true]
        have he : j + 1 - (String.utf8EncodeChar d).length = (encode sp').length := by omega
        refine ih sp' f _ (by simp at hn; omega) (fun x hx => hsp x (by simp [hx])) ?_ he (by omega)
        have := congrArg (List.take (encode sp').length) ht
        rw [List.take_left, List.take_take] at this
        rw [Nat.min_eq_left (by omega)] at this
        rw [he, this]
      · intro h; omega

/-- `TrimRight` on characters. -/
def dropRight (p : Char → Bool) (s : Str) : Str := (s.reverse.dropWhile p).reverse

theorem dropRight_split (p : Char → Bool) (s : Str) :
    (dropRight p s = [] ∧ ∀ c ∈ s, p c = true) ∨
    ∃ a c sp, s = a ++ [c] ++ sp ∧ p c = false ∧ (∀ d ∈ sp, p d = true) ∧ dropRight p s = a ++ [c] := by
  generalize hr : s.reverse = r
  have hs : s = r.reverse := by rw [← hr]; simp
  subst hs
  clear hr
  induction r with
  | nil => exact .inl ⟨rfl, by simp⟩
  | cons d r ih =>
    by_cases hd : p d = true
    · rcases ih with ⟨h1, h2⟩ | ⟨a, c, sp, h1, h2, h3, h4⟩
      · refine .inl ⟨?_, ?_⟩
        · simpa [dropRight, List.dropWhile_cons, hd] using h1
        · intro c hc
          simp only [List.reverse_cons, List.mem_append, List.mem_singleton] at hc
          rcases hc with hc | rfl
          · exact h2 c hc
          · exact hd
      · refine .inr ⟨a, c, sp ++ [d], by simp [h1], h2, ?_, ?_⟩
        · intro x hx
          rcases List.mem_append.1 hx with hx | hx
          · exact h3 x hx
          · simp only [List.mem_singleton] at hx; rw [hx]; exact hd
        · simpa [dropRight, List.dropWhile_cons, hd] using h4
    · refine .inr ⟨r.reverse, d, [], by simp, by simpa using hd, by simp, ?_⟩
      simp [dropRight, hd]

theorem trimRightFunc_encode (s : Str) : trimRightFunc u (encode s) = encode (dropRight u.isSpace s) := by
  rcases dropRight_split u.isSpace s with ⟨h1, h2⟩ | ⟨a, c, sp, h1, h2, h3, h4⟩
  · rw [h1, trimRightFunc, lastIndexAux_spaces (encode s) s.length s _ _ (Nat.le_refl _) h2 (List.take_length) rfl (Nat.le_refl _)]
    rfl
  · rw [h4]
    subst h1
    rw [trimRightFunc, lastIndexAux_encode _ a c h2 sp.length sp _ _ (Nat.le_refl _) h3 (List.take_length) rfl (Nat.le_refl _)]
    have hsplit : encode (a ++ [c] ++ sp) = encode a ++ (String.utf8EncodeChar c ++ encode sp) := by
      simp [encode]
    have hd : (encode (a ++ [c] ++ sp)).drop (encode a).length = String.utf8EncodeChar c ++ encode sp := by
      rw [hsplit, List.drop_left]
    have htake : (encode (a ++ [c] ++ sp)).take ((encode a).length + (String.utf8EncodeChar c).length) = encode (a ++ [c]) := by
      rw [hsplit, ← List.append_assoc, ← List.length_append, List.take_left]
      simp [encode]
    simp only
    split
    · rename_i h0
      rw [hd] at h0
      simp at h0
    · rename_i b t hbt
      rw [hd] at hbt
      rw [← hbt, decode_encode]
      split
      · exact htake
      · rename_i hb
        by_cases hlow : c.toNat < 0x80
        · rw [encodeChar_ascii hlow] at htake
          exact htake
        · obtain ⟨x, y, he, hx, _⟩ := encodeChar_high (c := c) (by omega)
          rw [he] at hbt
          simp only [List.cons_append, List.cons.injEq] at hbt
          rw [← hbt.1] at hb
          omega

/-- The trimming from the right leaves nothing only if the first character is white space. -/
theorem lastIndexAux_none (hE : u.isSpace runeError = false) (s : Bytes) : ∀ (fuel i : Nat), 1 ≤ i → i ≤ s.length → i ≤ fuel → lastIndexAux u s fuel i = none →
    u.isSpace (decode s).1 = true := by
  intro fuel
  induction fuel with
  | zero => intro i h1 _ h3; omega
  | succ f ih =>
    intro i h1 h2 h3 hn
    obtain ⟨j, rfl⟩ : ∃ j, i = j + 1 := ⟨i - 1, by omega⟩
    rw [lastIndexAux] at hn
    · have hne : s.take (j + 1) ≠ [] := by
        intro h0
        have := congrArg List.length h0
        simp only [List.length_take, List.length_nil] at this
        omega
      split at hn
      · rename_i hsp
        rcases decodeLast_cases _ hne with ⟨x, hx, hw⟩ | he
        · have hl := congrArg List.length hx
          simp only [List.length_append, List.length_take] at hl
          have hpos := List.length_pos_iff.2 (encodeChar_ne_nil (decodeLast (s.take (j + 1))).1)
          by_cases h0 : x = []
          · rw [h0, List.nil_append] at hx
            rw [← List.take_append_drop (j + 1) s, hx, decode_encode]
            exact hsp
          · have := List.length_pos_iff.2 h0
            exact ih _ (by omega) (by omega) (by omega) hn
        · rw [he, hE] at hsp
          cases hsp
      · cases hn
    · intro h; omega

theorem trimRightFunc_nil (hE : u.isSpace runeError = false) {s : Bytes} (h : trimRightFunc u s = []) : s = [] ∨ u.isSpace (decode s).1 = true := by
  by_cases hs : s = []
  · exact .inl hs
  · right
    have hpos := List.length_pos_iff.2 hs
    unfold trimRightFunc at h
    split at h
    · rename_i hn
      exact lastIndexAux_none hE s _ _ hpos (Nat.le_refl _) (Nat.le_refl _) hn
    · rename_i i _
      split at h
      · exact absurd h hs
      · rename_i b t hbt
        have hw := decode_width_pos (s := b :: t) (by simp)
        have hl := congrArg List.length hbt
        simp only [List.length_drop, List.length_cons] at hl
        split at h
        · have := congrArg List.length h
          simp only [List.length_take, List.length_nil] at this
          omega
        · have := congrArg List.length h
          simp only [List.length_take, List.length_nil] at this
          omega

/-! ### `TrimSpace` -/

/-- White space among the ASCII characters. -/
def asciiSpaceChar (c : Char) : Bool := c.toNat < 0x80 && asciiSpace (byte c)

theorem asciiSpace_iff (u : Unicode) {c : Char} (h : c.toNat < 0x80) : asciiSpace (byte c) = u.isSpace c := by
  rw [u.space_ascii c (by omega), asciiSpace, byte_toNat h]
  have hc : ∀ n, n < 0x80 → (c.toNat = n ↔ c = Char.ofNat n) := fun n hn =>
    ⟨fun e => by rw [← e, Char.ofNat_toNat], fun e => by rw [e, ofNat_toNat (by omega)]⟩
  rw [Bool.eq_iff_iff]
  simp only [Bool.or_eq_true, decide_eq_true_eq, hc 32 (by omega), hc 9 (by omega), hc 10 (by omega), hc 13 (by omega), hc 11 (by omega), hc 12 (by omega)]

theorem asciiSpaceChar_space (u : Unicode) {c : Char} (h : asciiSpaceChar c = true) : u.isSpace c = true := by
  simp only [asciiSpaceChar, Bool.and_eq_true, decide_eq_true_eq] at h
  rw [← asciiSpace_iff u h.1]; exact h.2

theorem asciiSpace_low {b : UInt8} (h : asciiSpace b = true) : b.toNat < 0x80 := by
  simp only [asciiSpace, Bool.or_eq_true, decide_eq_true_eq] at h; omega

theorem dropWhile_encode (s : Str) : (encode s).dropWhile asciiSpace = encode (s.dropWhile asciiSpaceChar) := by
  induction s with
  | nil => rfl
  | cons c s ih =>
    rw [encode_cons, List.dropWhile_cons]
    by_cases hlow : c.toNat < 0x80
    · rw [encodeChar_ascii hlow]
      simp only [asciiSpaceChar, hlow, decide_true, Bool.true_and, List.cons_append, List.nil_append, List.dropWhile_cons]
      split
      · exact ih
      · rw [encode_cons, encodeChar_ascii hlow]; rfl
    · obtain ⟨a, t, he, ha, _⟩ := encodeChar_high (c := c) (by omega)
      have h1 : asciiSpace a = false := by
        cases h : asciiSpace a with
        | false => rfl
        | true => have := asciiSpace_low h; omega
      rw [show asciiSpaceChar c = false by simp [asciiSpaceChar, hlow], if_neg (by simp), encode_cons, he]
      simp [h1]

theorem dropWhile_reverse_encode (r : Str) :
    ((encode r.reverse).reverse.dropWhile asciiSpace).reverse = encode (r.dropWhile asciiSpaceChar).reverse := by
  induction r with
  | nil => rfl
  | cons c r ih =>
    rw [List.reverse_cons, encode_append, List.reverse_append, List.dropWhile_cons]
    rw [show encode [c] = String.utf8EncodeChar c by simp [encode]]
    by_cases hlow : c.toNat < 0x80
    · rw [encodeChar_ascii hlow]
      simp only [asciiSpaceChar, hlow, decide_true, Bool.true_and, List.reverse_cons, List.reverse_nil, List.nil_append, List.cons_append, List.dropWhile_cons]
      split
      · exact ih
      · rw [List.reverse_cons, List.reverse_reverse, List.reverse_cons, encode_append]
        simp [encode, encodeChar_ascii hlow]
    · have hb := encodeChar_bytes (c := c) (by omega)
      obtain ⟨i, b, hi⟩ := exists_snoc _ (encodeChar_ne_nil c)
      have h1 : asciiSpace b = false := by
        cases h : asciiSpace b with
        | false => rfl
        | true => have := asciiSpace_low h; have := hb b (by rw [hi]; simp); omega
      have hn : asciiSpaceChar c = false := by simp [asciiSpaceChar, hlow]
      rw [hi, hn]
      simp only [List.reverse_append, List.reverse_cons, List.reverse_nil, List.nil_append, List.cons_append, List.dropWhile_cons, h1, Bool.false_eq_true, if_false]
      rw [encode_append, show encode [c] = String.utf8EncodeChar c by simp [encode], hi]
      simp

theorem dropWhile_dropWhile {p q : Char → Bool} (h : ∀ c, q c = true → p c = true) (s : Str) : (s.dropWhile q).dropWhile p = s.dropWhile p := by
  induction s with
  | nil => rfl
  | cons c s ih =>
    rw [List.dropWhile_cons]
    split
    · rename_i hq; rw [ih, List.dropWhile_cons, if_pos (h c hq)]
    · rfl

theorem dropWhile_all {p : Char → Bool} : ∀ {s : Str}, (∀ c ∈ s, p c = true) → s.dropWhile p = []
  | [], _ => rfl
  | c :: s, h => by rw [List.dropWhile_cons, if_pos (h c (by simp)), dropWhile_all fun d hd => h d (by simp [hd])]

/-- On valid UTF-8 `TrimSpace` is the trimming of characters. -/
theorem trimSpace_encode (u : Unicode) (s : Str) : trimSpace u (encode s) = encode (Verif.trimSpace u s) := by
  have hts : ∀ s, Verif.trimSpace u s = dropRight u.isSpace (s.dropWhile u.isSpace) := fun s => rfl
  have hleft : Verif.trimSpace u s = Verif.trimSpace u (s.dropWhile asciiSpaceChar) := by
    rw [hts, hts, dropWhile_dropWhile (fun c => asciiSpaceChar_space u)]
  rw [hleft]
  unfold trimSpace
  rw [dropWhile_encode]
  generalize hs1 : s.dropWhile asciiSpaceChar = s1
  cases s1 with
  | nil => rfl
  | cons c s2 =>
    have hc : asciiSpaceChar c = false := by
      have := List.head?_dropWhile_not asciiSpaceChar s
      rw [hs1] at this
      simpa using this
    have hne : encode (c :: s2) ≠ [] := by rw [encode_cons]; simp
    split
    · rename_i h0; exact absurd h0 hne
    · rename_i b t hbt
      by_cases hlow : c.toNat < 0x80
      · have hb : b = byte c := by
          rw [encode_cons, encodeChar_ascii hlow] at hbt
          simp only [List.cons_append, List.cons.injEq] at hbt
          exact hbt.1.symm
        rw [if_neg (by rw [hb, byte_toNat hlow]; omega)]
        have hnsp : u.isSpace c = false := by
          rw [← asciiSpace_iff u hlow]
          simpa [asciiSpaceChar, hlow] using hc
        have hl : (c :: s2).dropWhile u.isSpace = c :: s2 := by rw [List.dropWhile_cons]; simp [hnsp]
        rw [← hbt, hts, hl]
        have hrev := dropWhile_reverse_encode (c :: s2).reverse
        rw [List.reverse_reverse] at hrev
        have hdd : dropRight u.isSpace (c :: s2) = dropRight u.isSpace (dropRight asciiSpaceChar (c :: s2)) := by
          simp only [dropRight, List.reverse_reverse]
          rw [dropWhile_dropWhile (fun c => asciiSpaceChar_space u)]
        rcases dropRight_split asciiSpaceChar (c :: s2) with ⟨_, h2⟩ | ⟨a, d, sp, h1, h2, h3, h4⟩
        · have := h2 c (by simp); rw [hc] at this; cases this
        · have h4' : ((c :: s2).reverse.dropWhile asciiSpaceChar).reverse = a ++ [d] := h4
          rw [h4'] at hrev
          rw [hdd, h4]
          split
          · rename_i h0
            rw [h0] at hrev
            rw [encode_append, show encode [d] = String.utf8EncodeChar d by simp [encode]] at hrev
            exact absurd (List.append_eq_nil_iff.1 hrev.symm).2 (encodeChar_ne_nil d)
          · rename_i x r hxr
            rw [hxr] at hrev
            split
            · rw [hrev, trimRightFunc_encode]
            · rename_i hx
              rw [hrev]
              -- the last character is ASCII
              have hdlow : d.toNat < 0x80 := by
                rcases Nat.lt_or_ge d.toNat 0x80 with h | h
                · exact h
                · exfalso
                  have hbs := encodeChar_bytes h
                  rw [encode_append, show encode [d] = String.utf8EncodeChar d by simp [encode]] at hrev
                  obtain ⟨i, y, hi⟩ := exists_snoc _ (encodeChar_ne_nil d)
                  have hy := hbs y (by rw [hi]; simp)
                  rw [hi, List.reverse_cons, ← List.append_assoc] at hrev
                  have := (List.append_inj' hrev rfl).2
                  simp only [List.cons.injEq, and_true] at this
                  rw [this] at hx
                  omega
              have hdn : u.isSpace d = false := by
                rw [← asciiSpace_iff u hdlow]
                simpa [asciiSpaceChar, hdlow] using h2
              simp [dropRight, hdn]
      · obtain ⟨x, y, he, hx, _⟩ := encodeChar_high (c := c) (by omega)
        have hb : b = x := by
          rw [encode_cons, he] at hbt
          simp only [List.cons_append, List.cons.injEq] at hbt
          exact hbt.1.symm
        rw [if_pos (by rw [hb]; omega), ← hbt, trimLeftFunc_encode, trimRightFunc_encode, hts]

theorem runes_ascii {b : UInt8} (h : b.toNat < 0x80) (t : Bytes) : runes (b :: t) = Char.ofNat b.toNat :: runes t := by
  have := runes_char (Char.ofNat b.toNat) t
  rwa [encode1 b h] at this

theorem asciiSpace_isSpace (u : Unicode) {b : UInt8} (hl : b.toNat < 0x80) : u.isSpace (Char.ofNat b.toNat) = asciiSpace b := by
  have hn := ofNat_toNat (n := b.toNat) (by omega)
  rw [← asciiSpace_iff u (by rw [hn]; exact hl), byte, hn, UInt8.ofNat_toNat]

theorem runes_dropWhile (u : Unicode) (s : Bytes) (h : ∀ c ∈ runes (s.dropWhile asciiSpace), u.isSpace c = true) : ∀ c ∈ runes s, u.isSpace c = true := by
  induction s with
  | nil => exact h
  | cons b t ih =>
    rw [List.dropWhile_cons] at h
    split at h
    · rename_i hb
      have hl := asciiSpace_low hb
      rw [runes_ascii hl]
      intro c hc
      rcases List.mem_cons.1 hc with rfl | hc
      · rw [asciiSpace_isSpace u hl]; exact hb
      · exact ih h c hc
    · exact h

/-- `TrimSpace` leaves nothing exactly of strings of white space; these are valid UTF-8. -/
theorem trimSpace_nil (u : Unicode) (hE : u.isSpace runeError = false) (s : Bytes) :
    trimSpace u s = [] ↔ ∃ cs, s = encode cs ∧ ∀ c ∈ cs, u.isSpace c = true := by
  constructor
  · intro h
    have hall : ∀ c ∈ runes s, u.isSpace c = true := by
      apply runes_dropWhile
      unfold trimSpace at h
      split at h
      · rename_i h0; rw [h0]; simp [runes_nil]
      · rename_i b t hbt
        have hbn : asciiSpace b = false := by
          have := List.head?_dropWhile_not asciiSpace s
          rw [hbt] at this
          simpa using this
        rw [hbt]
        split at h
        · rcases trimRightFunc_nil hE h with h0 | h0
          · exact trimLeftFunc_all _ _ (Nat.le_refl _) h0
          · by_cases hnil : trimLeftFunc u (b :: t) = []
            · exact trimLeftFunc_all _ _ (Nat.le_refl _) hnil
            · rw [trimLeftFunc_head _ _ (Nat.le_refl _) hnil] at h0; cases h0
        · rename_i hlow
          exfalso
          have hmem : b ∈ ((b :: t).reverse.dropWhile asciiSpace) := by
            rw [List.reverse_cons, List.dropWhile_append]
            split
            · simp [hbn]
            · simp
          have hpre : ∃ y, (b :: t).reverse = y ++ (b :: t).reverse.dropWhile asciiSpace :=
            ⟨_, (List.takeWhile_append_dropWhile).symm⟩
          split at h
          · rename_i h0; rw [h0] at hmem; cases hmem
          · rename_i c r hcr
            obtain ⟨y, hy⟩ := hpre
            rw [hcr] at hy
            have hy' := congrArg List.reverse hy
            rw [List.reverse_reverse, List.reverse_append] at hy'
            split at h
            · rcases trimRightFunc_nil hE h with h0 | h0
              · simp at h0
              · have hne : (c :: r).reverse ≠ [] := by simp
                obtain ⟨x, z, hxz⟩ := List.exists_cons_of_ne_nil hne
                rw [hxz] at hy' h0
                simp only [List.cons_append, List.cons.injEq] at hy'
                rw [← hy'.1, decode, if_pos (by omega)] at h0
                simp only at h0
                rw [asciiSpace_isSpace u (by omega), hbn] at h0
                cases h0
            · simp at h
    exact ⟨runes s, encode_runes _ s (Nat.le_refl _) (fun c hc he => by rw [← he, hall c hc] at hE; cases hE), hall⟩
  · rintro ⟨cs, rfl, hcs⟩
    rw [trimSpace_encode]
    have : Verif.trimSpace u cs = [] := by
      have h1 : cs.dropWhile u.isSpace = [] := dropWhile_all hcs
      simp [Verif.trimSpace, trimLeft, h1]
    rw [this]; rfl

end Bytes
end Verif
