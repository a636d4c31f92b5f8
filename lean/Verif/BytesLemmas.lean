import Verif.Bytes

/-
Lemmas on bytes and characters.
-/

namespace Verif
namespace Bytes

/-- A list of characters in UTF-8. -/
def encode (s : Str) : Bytes := s.flatMap String.utf8EncodeChar

theorem encode_nil : encode [] = [] := rfl
theorem encode_cons (c : Char) (s : Str) : encode (c :: s) = String.utf8EncodeChar c ++ encode s := rfl
theorem encode_append (s t : Str) : encode (s ++ t) = encode s ++ encode t := by simp [encode]

/-- The four forms of an encoded character. -/
theorem encodeChar_cases (c : Char) :
    (c.toNat < 0x80 ∧ ∃ a : UInt8, String.utf8EncodeChar c = [a] ∧ a.toNat = c.toNat) ∨
    (0x80 ≤ c.toNat ∧ c.toNat < 0x800 ∧ ∃ a b : UInt8, String.utf8EncodeChar c = [a, b] ∧ a.toNat = c.toNat / 64 + 192 ∧
      b.toNat = c.toNat % 64 + 128) ∨
    (0x800 ≤ c.toNat ∧ c.toNat < 0x10000 ∧ (c.toNat < 0xD800 ∨ 0xDFFF < c.toNat) ∧ ∃ a b d : UInt8, String.utf8EncodeChar c = [a, b, d] ∧
      a.toNat = c.toNat / 4096 + 224 ∧ b.toNat = c.toNat / 64 % 64 + 128 ∧ d.toNat = c.toNat % 64 + 128) ∨
    (0x10000 ≤ c.toNat ∧ c.toNat < 0x110000 ∧ ∃ a b d e : UInt8, String.utf8EncodeChar c = [a, b, d, e] ∧
      a.toNat = c.toNat / 262144 + 240 ∧ b.toNat = c.toNat / 4096 % 64 + 128 ∧ d.toNat = c.toNat / 64 % 64 + 128 ∧
      e.toNat = c.toNat % 64 + 128) := by
  have hv : c.toNat < 0xD800 ∨ (0xDFFF < c.toNat ∧ c.toNat < 0x110000) := c.valid
  have hn : c.val.toNat = c.toNat := rfl
  unfold String.utf8EncodeChar
  simp only [hn]
  by_cases h1 : c.toNat ≤ 127
  · rw [if_pos h1]
    exact .inl ⟨by omega, _, rfl, by rw [UInt8.toNat_ofNat']; omega⟩
  · rw [if_neg h1]
    by_cases h2 : c.toNat ≤ 2047
    · rw [if_pos h2]
      exact .inr (.inl ⟨by omega, by omega, _, _, rfl, by rw [UInt8.toNat_ofNat']; omega, by rw [UInt8.toNat_ofNat']; omega⟩)
    · rw [if_neg h2]
      by_cases h3 : c.toNat ≤ 65535
      · rw [if_pos h3]
        exact .inr (.inr (.inl ⟨by omega, by omega, by omega, _, _, _, rfl, by rw [UInt8.toNat_ofNat']; omega, by rw [UInt8.toNat_ofNat']; omega,
          by rw [UInt8.toNat_ofNat']; omega⟩))
      · rw [if_neg h3]
        exact .inr (.inr (.inr ⟨by omega, by omega, _, _, _, _, rfl, by rw [UInt8.toNat_ofNat']; omega, by rw [UInt8.toNat_ofNat']; omega,
          by rw [UInt8.toNat_ofNat']; omega, by rw [UInt8.toNat_ofNat']; omega⟩))

theorem first_spec {p n lo hi : Nat} (h : first p = some (n, lo, hi)) :
    (n = 2 ∧ 0xC2 ≤ p ∧ p < 0xE0 ∧ lo = 0x80 ∧ hi = 0xBF) ∨
    (n = 3 ∧ 0xE0 ≤ p ∧ p < 0xF0 ∧ (p = 0xE0 ∧ lo = 0xA0 ∨ p ≠ 0xE0 ∧ lo = 0x80) ∧ (p = 0xED ∧ hi = 0x9F ∨ p ≠ 0xED ∧ hi = 0xBF)) ∨
    (n = 4 ∧ 0xF0 ≤ p ∧ p < 0xF5 ∧ (p = 0xF0 ∧ lo = 0x90 ∨ p ≠ 0xF0 ∧ lo = 0x80) ∧ (p = 0xF4 ∧ hi = 0x8F ∨ p ≠ 0xF4 ∧ hi = 0xBF)) := by
  unfold first at h
  repeat' split at h
  all_goals (first | (cases h; done) | (simp only [Option.some.injEq, Prod.mk.injEq] at h; omega))

theorem first_isSome {p : Nat} (h : 0xC2 ≤ p) (h' : p < 0xF5) : ∃ n lo hi, first p = some (n, lo, hi) := by
  unfold first
  repeat' split
  all_goals (first | exact ⟨_, _, _, rfl⟩ | omega)

theorem ofNat_toNat {n : Nat} (h : n < 0xD800 ∨ (0xDFFF < n ∧ n < 0x110000)) : (Char.ofNat n).toNat = n := by
  have h' : n.isValidChar := h
  simp only [Char.ofNat, dif_pos h']
  rfl

theorem decode_encode (c : Char) (t : Bytes) : decode (String.utf8EncodeChar c ++ t) = (c, (String.utf8EncodeChar c).length) := by
  have hc : Char.ofNat c.toNat = c := Char.ofNat_toNat c
  rcases encodeChar_cases c with ⟨h, a, he, ha⟩ | ⟨h, h', a, b, he, ha, hb⟩ | ⟨h, h', hs, a, b, d, he, ha, hb, hd⟩ | ⟨h, h', a, b, d, e, he, ha, hb, hd, hE⟩
  · rw [he]; simp [decode, ha, h, hc]
  · rw [he]
    obtain ⟨n, lo, hi, hf⟩ := first_isSome (p := a.toNat) (by omega) (by omega)
    have := first_spec hf
    obtain ⟨rfl, _, _, rfl, rfl⟩ : n = 2 ∧ 0xC2 ≤ a.toNat ∧ a.toNat < 0xE0 ∧ lo = 0x80 ∧ hi = 0xBF := by omega
    simp only [decode, List.cons_append, List.nil_append, hf]
    rw [if_neg (by omega), if_neg (by simp), if_neg (by simp; omega), if_pos (by omega)]
    rw [show a.toNat % 32 * 64 + b.toNat % 64 = c.toNat by omega, hc]; rfl
  · rw [he]
    obtain ⟨n, lo, hi, hf⟩ := first_isSome (p := a.toNat) (by omega) (by omega)
    have := first_spec hf
    obtain ⟨rfl, h1, h2⟩ : n = 3 ∧ lo ≤ b.toNat ∧ b.toNat ≤ hi := by omega
    simp only [decode, List.cons_append, List.nil_append, hf]
    rw [if_neg (by omega), if_neg (by simp), if_neg (by simp; omega), if_neg (by omega), if_neg (by simp [continues]; omega), if_pos (by omega)]
    rw [show a.toNat % 16 * 4096 + b.toNat % 64 * 64 + d.toNat % 64 = c.toNat by omega, hc]; rfl
  · rw [he]
    obtain ⟨n, lo, hi, hf⟩ := first_isSome (p := a.toNat) (by omega) (by omega)
    have := first_spec hf
    obtain ⟨rfl, h1, h2⟩ : n = 4 ∧ lo ≤ b.toNat ∧ b.toNat ≤ hi := by omega
    simp only [decode, List.cons_append, List.nil_append, hf]
    rw [if_neg (by omega), if_neg (by simp), if_neg (by simp; omega), if_neg (by omega), if_neg (by simp [continues]; omega), if_neg (by omega),
      if_neg (by simp [continues]; omega)]
    rw [show a.toNat % 8 * 262144 + b.toNat % 64 * 4096 + d.toNat % 64 * 64 + e.toNat % 64 = c.toNat by omega, hc]; rfl

theorem encode1 (a : UInt8) (h : a.toNat < 0x80) : String.utf8EncodeChar (Char.ofNat a.toNat) = [a] := by
  have hn := ofNat_toNat (n := a.toNat) (by omega)
  rcases encodeChar_cases (Char.ofNat a.toNat) with ⟨_, a', he, ha⟩ | ⟨_, _, a', b', he, ha, hb⟩ | ⟨_, _, _, a', b', d', he, ha, hb, hd⟩ | ⟨_, _, a', b', d', e', he, ha, hb, hd, hE⟩
  · rw [he, show a' = a from UInt8.toNat_inj.1 (by omega)]
  all_goals omega

theorem encode2 (a b : UInt8) (h1 : 0xC2 ≤ a.toNat) (h2 : a.toNat < 0xE0) (h3 : 0x80 ≤ b.toNat) (h4 : b.toNat ≤ 0xBF) :
    String.utf8EncodeChar (Char.ofNat (a.toNat % 32 * 64 + b.toNat % 64)) = [a, b] := by
  have hn := ofNat_toNat (n := a.toNat % 32 * 64 + b.toNat % 64) (by omega)
  rcases encodeChar_cases (Char.ofNat (a.toNat % 32 * 64 + b.toNat % 64)) with ⟨_, a', he, ha⟩ | ⟨_, _, a', b', he, ha, hb⟩ | ⟨_, _, _, a', b', d', he, ha, hb, hd⟩ | ⟨_, _, a', b', d', e', he, ha, hb, hd, hE⟩
  · omega
  · rw [he, show a' = a from UInt8.toNat_inj.1 (by omega), show b' = b from UInt8.toNat_inj.1 (by omega)]
  all_goals omega

theorem encode3 (a b d : UInt8) (h1 : 0xE0 ≤ a.toNat) (h2 : a.toNat < 0xF0) (h3 : 0x80 ≤ b.toNat) (h4 : b.toNat ≤ 0xBF)
    (h5 : a.toNat = 0xE0 → 0xA0 ≤ b.toNat) (h6 : a.toNat = 0xED → b.toNat ≤ 0x9F) (h7 : 0x80 ≤ d.toNat) (h8 : d.toNat ≤ 0xBF) :
    String.utf8EncodeChar (Char.ofNat (a.toNat % 16 * 4096 + b.toNat % 64 * 64 + d.toNat % 64)) = [a, b, d] := by
  have hn := ofNat_toNat (n := a.toNat % 16 * 4096 + b.toNat % 64 * 64 + d.toNat % 64) (by omega)
  rcases encodeChar_cases (Char.ofNat (a.toNat % 16 * 4096 + b.toNat % 64 * 64 + d.toNat % 64)) with ⟨_, a', he, ha⟩ | ⟨_, _, a', b', he, ha, hb⟩ | ⟨_, _, _, a', b', d', he, ha, hb, hd⟩ | ⟨_, _, a', b', d', e', he, ha, hb, hd, hE⟩
  · omega
  · omega
  · rw [he, show a' = a from UInt8.toNat_inj.1 (by omega), show b' = b from UInt8.toNat_inj.1 (by omega),
      show d' = d from UInt8.toNat_inj.1 (by omega)]
  · omega

theorem encode4 (a b d e : UInt8) (h1 : 0xF0 ≤ a.toNat) (h2 : a.toNat < 0xF5) (h3 : 0x80 ≤ b.toNat) (h4 : b.toNat ≤ 0xBF)
    (h5 : a.toNat = 0xF0 → 0x90 ≤ b.toNat) (h6 : a.toNat = 0xF4 → b.toNat ≤ 0x8F) (h7 : 0x80 ≤ d.toNat) (h8 : d.toNat ≤ 0xBF)
    (h9 : 0x80 ≤ e.toNat) (h10 : e.toNat ≤ 0xBF) :
    String.utf8EncodeChar (Char.ofNat (a.toNat % 8 * 262144 + b.toNat % 64 * 4096 + d.toNat % 64 * 64 + e.toNat % 64)) = [a, b, d, e] := by
  have hn := ofNat_toNat (n := a.toNat % 8 * 262144 + b.toNat % 64 * 4096 + d.toNat % 64 * 64 + e.toNat % 64) (by omega)
  rcases encodeChar_cases (Char.ofNat (a.toNat % 8 * 262144 + b.toNat % 64 * 4096 + d.toNat % 64 * 64 + e.toNat % 64)) with ⟨_, a', he, ha⟩ | ⟨_, _, a', b', he, ha, hb⟩ | ⟨_, _, _, a', b', d', he, ha, hb, hd⟩ | ⟨_, _, a', b', d', e', he, ha, hb, hd, hE⟩
  · omega
  · omega
  · omega
  · rw [he, show a' = a from UInt8.toNat_inj.1 (by omega), show b' = b from UInt8.toNat_inj.1 (by omega),
      show d' = d from UInt8.toNat_inj.1 (by omega), show e' = e from UInt8.toNat_inj.1 (by omega)]

/-- Decoding finds an encoded character, or it reports an error for one byte. -/
theorem decode_cases (s : Bytes) (h : s ≠ []) :
    (∃ t, s = String.utf8EncodeChar (decode s).1 ++ t ∧ (decode s).2 = (String.utf8EncodeChar (decode s).1).length) ∨ decode s = (runeError, 1) := by
  cases s with
  | nil => exact absurd rfl h
  | cons p t =>
    simp only [decode]
    split
    · rename_i hp
      exact .inl ⟨t, by simp [encode1 p hp], by simp [encode1 p hp]⟩
    · split
      · exact .inr rfl
      · rename_i n lo hi hf
        have hs := first_spec hf
        split
        · exact .inr rfl
        · split
          · exact .inr rfl
          · rename_i b t _
            split
            · exact .inr rfl
            · rename_i hb
              simp only [Bool.or_eq_true, decide_eq_true_eq, not_or, Nat.not_lt] at hb
              split
              · have := encode2 p b (by omega) (by omega) (by omega) (by omega)
                exact .inl ⟨t, by simp [this], by simp [this]⟩
              · split
                · exact .inr rfl
                · rename_i c t _
                  split
                  · exact .inr rfl
                  · rename_i hc
                    simp only [continues, Bool.not_eq_true', Bool.not_eq_false, Bool.and_eq_true, decide_eq_true_eq] at hc
                    split
                    · have := encode3 p b c (by omega) (by omega) (by omega) (by omega) (by omega) (by omega) (by omega) (by omega)
                      exact .inl ⟨t, by simp [this], by simp [this]⟩
                    · split
                      · exact .inr rfl
                      · rename_i d t _
                        split
                        · exact .inr rfl
                        · rename_i hd
                          simp only [continues, Bool.not_eq_true', Bool.not_eq_false, Bool.and_eq_true, decide_eq_true_eq] at hd
                          have := encode4 p b c d (by omega) (by omega) (by omega) (by omega) (by omega) (by omega) (by omega) (by omega) (by omega) (by omega)
                          exact .inl ⟨t, by simp [this], by simp [this]⟩

theorem encodeChar_ne_nil (c : Char) : String.utf8EncodeChar c ≠ [] := by
  rcases encodeChar_cases c with ⟨_, a, he, _⟩ | ⟨_, _, a, b, he, _⟩ | ⟨_, _, _, a, b, d, he, _⟩ | ⟨_, _, a, b, d, e, he, _⟩ <;> simp [he]

theorem encodeChar_ascii {c : Char} (h : c.toNat < 0x80) : String.utf8EncodeChar c = [byte c] := by
  rcases encodeChar_cases c with ⟨_, a, he, ha⟩ | ⟨_, _, a, b, he, _⟩ | ⟨_, _, _, a, b, d, he, _⟩ | ⟨_, _, a, b, d, e, he, _⟩
  · rw [he, byte, ← ha, UInt8.ofNat_toNat]
  all_goals omega

/-- The bytes of a character that is not ASCII: a first byte, and others that continue it. -/
theorem encodeChar_high {c : Char} (h : 0x80 ≤ c.toNat) :
    ∃ a t, String.utf8EncodeChar c = a :: t ∧ 0xC2 ≤ a.toNat ∧ (∀ b ∈ t, 0x80 ≤ b.toNat ∧ b.toNat ≤ 0xBF) := by
  rcases encodeChar_cases c with ⟨_, a, he, ha⟩ | ⟨_, _, a, b, he, _⟩ | ⟨_, _, _, a, b, d, he, _⟩ | ⟨_, _, a, b, d, e, he, _⟩
  · omega
  · exact ⟨a, [b], he, by omega, by simp; omega⟩
  · exact ⟨a, [b, d], he, by omega, by simp; omega⟩
  · exact ⟨a, [b, d, e], he, by omega, by simp; omega⟩

theorem encodeChar_bytes {c : Char} (h : 0x80 ≤ c.toNat) : ∀ b ∈ String.utf8EncodeChar c, 0x80 ≤ b.toNat := by
  obtain ⟨a, t, he, ha, ht⟩ := encodeChar_high h
  rw [he]
  intro b hb
  rcases List.mem_cons.1 hb with rfl | hb
  · omega
  · exact (ht b hb).1

theorem byte_toNat {c : Char} (h : c.toNat < 0x80) : (byte c).toNat = c.toNat := by
  rw [byte, UInt8.toNat_ofNat']; omega

theorem decode_width_pos {s : Bytes} (h : s ≠ []) : 1 ≤ (decode s).2 ∧ (decode s).2 ≤ s.length := by
  rcases decode_cases s h with ⟨t, hs, hw⟩ | he
  · have := List.length_pos_iff.2 (encodeChar_ne_nil (decode s).1)
    have hl := congrArg List.length hs
    simp only [List.length_append] at hl
    omega
  · rw [he]
    exact ⟨Nat.le_refl _, List.length_pos_iff.2 h⟩

/-! ### Characters of a string -/

theorem runesAux_fuel : ∀ (n m : Nat) (s : Bytes), s.length ≤ n → s.length ≤ m → runesAux n s = runesAux m s
  | 0, m, s, h, _ => by
    obtain rfl := List.length_eq_zero_iff.1 (Nat.le_zero.1 h)
    cases m <;> rfl
  | n + 1, 0, s, _, h => by
    obtain rfl := List.length_eq_zero_iff.1 (Nat.le_zero.1 h)
    rfl
  | n + 1, m + 1, [], _, _ => rfl
  | n + 1, m + 1, b :: t, h, h' => by
    have := decode_width_pos (s := b :: t) (by simp)
    simp only [runesAux]
    rw [runesAux_fuel n m _ (by simp only [List.length_drop]; omega) (by simp only [List.length_drop]; omega)]

theorem runes_nil : runes [] = [] := rfl

theorem runes_of_ne_nil {s : Bytes} (h : s ≠ []) : runes s = (decode s).1 :: runes (s.drop (decode s).2) := by
  cases s with
  | nil => exact absurd rfl h
  | cons b t =>
    have := decode_width_pos (s := b :: t) (by simp)
    simp only [runes, List.length_cons, runesAux]
    rw [runesAux_fuel t.length _ _ (by simp only [List.length_drop, List.length_cons]; omega) (Nat.le_refl _)]

theorem runes_char (c : Char) (t : Bytes) : runes (String.utf8EncodeChar c ++ t) = c :: runes t := by
  rw [runes_of_ne_nil (by simp), decode_encode]
  simp only [List.drop_left]

theorem runes_encode (s : Str) : runes (encode s) = s := by
  induction s with
  | nil => rfl
  | cons c s ih => rw [encode_cons, runes_char, ih]

/-- A string without errors is the encoding of its characters. -/
theorem encode_runes : ∀ (n : Nat) (s : Bytes), s.length ≤ n → (∀ c ∈ runes s, c ≠ runeError) → s = encode (runes s)
  | _, [], _, _ => rfl
  | 0, b :: t, h, _ => by simp at h
  | n + 1, b :: t, h, hr => by
    rw [runes_of_ne_nil (by simp)] at hr ⊢
    rcases decode_cases (b :: t) (by simp) with ⟨r, hs, hw⟩ | he
    · have hp := decode_width_pos (s := b :: t) (by simp)
      have hd : (b :: t).drop (decode (b :: t)).2 = r := by
        rw [hw]
        conv => lhs; arg 2; rw [hs]
        exact List.drop_left
      rw [hd] at hr ⊢
      have hlen : r.length ≤ n := by
        rw [← hd, List.length_drop]; simp only [List.length_cons] at h ⊢; omega
      rw [encode_cons, ← encode_runes n r hlen (fun c hc => hr c (List.mem_cons_of_mem _ hc))]
      exact hs
    · exact absurd (by rw [he]) (hr (decode (b :: t)).1 (by simp))

/-! ### The last character -/

theorem decodeLast_encode (x : Bytes) (c : Char) : decodeLast (x ++ String.utf8EncodeChar c) = (c, (String.utf8EncodeChar c).length) := by
  have hd := decode_encode c []
  rw [List.append_nil] at hd
  have hc : Char.ofNat c.toNat = c := Char.ofNat_toNat c
  rcases encodeChar_cases c with ⟨h, a, he, ha⟩ | ⟨h, h', a, b, he, ha, hb⟩ | ⟨h, h', hs, a, b, d, he, ha, hb, hdd⟩ | ⟨h, h', a, b, d, e, he, ha, hb, hdd, hE⟩
  · rw [he]
    simp only [decodeLast, List.reverse_append, List.reverse_cons, List.reverse_nil, List.nil_append, List.cons_append]
    rw [if_pos (by omega), ha, hc]; rfl
  · rw [he] at hd ⊢
    have r1 : runeStart a = true := by simp [runeStart]; omega
    have hdrop : (x ++ [a, b]).drop ((x ++ [a, b]).length - 2) = [a, b] := by simp
    simp only [decodeLast, List.reverse_append, List.reverse_cons, List.reverse_nil, List.nil_append, List.cons_append]
    rw [if_neg (by omega)]
    simp only [tried, List.take_succ_cons, List.findIdx?_cons, r1, if_true, Nat.zero_add, hdrop, hd]
    rfl
  · rw [he] at hd ⊢
    have r1 : runeStart a = true := by simp [runeStart]; omega
    have r2 : runeStart b = false := by simp [runeStart]; omega
    have hdrop : (x ++ [a, b, d]).drop ((x ++ [a, b, d]).length - 3) = [a, b, d] := by simp
    simp only [decodeLast, List.reverse_append, List.reverse_cons, List.reverse_nil, List.nil_append, List.cons_append]
    rw [if_neg (by omega)]
    simp only [tried, List.take_succ_cons, List.findIdx?_cons, r1, r2, if_true, Bool.false_eq_true, if_false, Option.map_some, Nat.zero_add, hdrop, hd]
    rfl
  · rw [he] at hd ⊢
    have r1 : runeStart a = true := by simp [runeStart]; omega
    have r2 : runeStart b = false := by simp [runeStart]; omega
    have r3 : runeStart d = false := by simp [runeStart]; omega
    have hdrop : (x ++ [a, b, d, e]).drop ((x ++ [a, b, d, e]).length - 4) = [a, b, d, e] := by simp
    simp only [decodeLast, List.reverse_append, List.reverse_cons, List.reverse_nil, List.nil_append, List.cons_append]
    rw [if_neg (by omega)]
    simp only [tried, List.take_succ_cons, List.findIdx?_cons, r1, r2, r3, if_true, Bool.false_eq_true, if_false, Option.map_some, Nat.zero_add, hdrop, hd]
    rfl

theorem decodeLast_cases (s : Bytes) (h : s ≠ []) :
    (∃ x, s = x ++ String.utf8EncodeChar (decodeLast s).1 ∧ (decodeLast s).2 = (String.utf8EncodeChar (decodeLast s).1).length) ∨
    decodeLast s = (runeError, 1) := by
  have hrev : s = s.reverse.reverse := by simp
  cases hr : s.reverse with
  | nil => simp at hr; exact absurd hr h
  | cons b t =>
    have hs : s = t.reverse ++ [b] := by rw [hrev, hr]; simp
    have hlen : s.length = t.length + 1 := by rw [hs]; simp
    simp only [decodeLast, hr]
    split
    · rename_i hb
      exact .inl ⟨t.reverse, by rw [encode1 b hb]; exact hs, by simp [encode1 b hb]⟩
    · generalize hw : tried s.length t = w
      have hw' : 1 ≤ w ∧ w ≤ s.length := by
        rw [← hw]
        unfold tried
        cases hf : (t.take 3).findIdx? runeStart with
        | none => simp only; omega
        | some j =>
          have := List.findIdx?_eq_some_iff_getElem.1 hf
          obtain ⟨hj, _⟩ := this
          simp only [List.length_take] at hj
          simp only
          omega
      have hne : s.drop (s.length - w) ≠ [] := by
        intro h0
        have := congrArg List.length h0
        simp only [List.length_drop, List.length_nil] at this
        omega
      split
      · rename_i hd
        rcases decode_cases _ hne with ⟨r, h1, h2⟩ | he
        · left
          have hl := congrArg List.length h1
          simp only [List.length_append, List.length_drop] at hl
          have : r = [] := List.length_eq_zero_iff.1 (by omega)
          rw [this, List.append_nil] at h1
          refine ⟨s.take (s.length - w), ?_, h2⟩
          rw [← h1, List.take_append_drop]
        · exact .inr he
      · exact .inr rfl

end Bytes
end Verif
