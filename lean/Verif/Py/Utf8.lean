import Mathlib.Data.List.Basic
import Mathlib.Tactic.ByContra
/-!
# UTF-8, as CPython's strict codec

Text is a list of code points, bytes a list of numbers below 256.
-/
namespace Verif.Py

/-- A code point that can be encoded: below 0x110000 and not a surrogate. -/
def IsScalar (c : Nat) : Prop := c < 0xD800 ∨ (0xE000 ≤ c ∧ c < 0x110000)

instance (c : Nat) : Decidable (IsScalar c) := by unfold IsScalar; infer_instance

def utf8Char (c : Nat) : List Nat :=
  if c < 0x80 then [c]
  else if c < 0x800 then [0xC0 + c / 64, 0x80 + c % 64]
  else if c < 0x10000 then [0xE0 + c / 4096, 0x80 + c / 64 % 64, 0x80 + c % 64]
  else [0xF0 + c / 262144, 0x80 + c / 4096 % 64, 0x80 + c / 64 % 64, 0x80 + c % 64]

/-- `s.encode('utf-8')`; `none` = `UnicodeEncodeError` (surrogates). -/
def utf8Encode : List Nat → Option (List Nat)
  | [] => some []
  | c :: s => if IsScalar c then (utf8Encode s).map (utf8Char c ++ ·) else none

/-- Decoder with `k` continuation bytes still to come for a character whose bits so far are `v` and which
must be at least `m` (no overlong forms). -/
def utf8Dec : Nat → Nat → Nat → List Nat → Option (List Nat)
  | 0, _, _, [] => some []
  | _ + 1, _, _, [] => none
  | 0, _, _, b :: r =>
    if b < 0x80 then (utf8Dec 0 0 0 r).map (b :: ·)
    else if 0xC2 ≤ b ∧ b < 0xE0 then utf8Dec 1 (b - 0xC0) 0x80 r
    else if 0xE0 ≤ b ∧ b < 0xF0 then utf8Dec 2 (b - 0xE0) 0x800 r
    else if 0xF0 ≤ b ∧ b < 0xF5 then utf8Dec 3 (b - 0xF0) 0x10000 r
    else none
  | 1, v, m, b :: r =>
    if 0x80 ≤ b ∧ b < 0xC0 ∧ m ≤ v * 64 + (b - 0x80) ∧ IsScalar (v * 64 + (b - 0x80)) then
      (utf8Dec 0 0 0 r).map ((v * 64 + (b - 0x80)) :: ·)
    else none
  | k + 2, v, m, b :: r =>
    if 0x80 ≤ b ∧ b < 0xC0 then utf8Dec (k + 1) (v * 64 + (b - 0x80)) m r else none

/-- `b.decode('utf-8')`; `none` = `UnicodeDecodeError`. -/
def utf8Decode (b : List Nat) : Option (List Nat) := utf8Dec 0 0 0 b

theorem utf8Decode_char (c : Nat) (hc : IsScalar c) (r : List Nat) :
    utf8Decode (utf8Char c ++ r) = (utf8Decode r).map (c :: ·) := by
  have hs := hc
  unfold IsScalar at hc
  unfold utf8Char utf8Decode
  split
  · rename_i h
    simp [utf8Dec, h]
  · split
    · rename_i h1 h2
      have e4 : (0xC0 + c / 64 - 0xC0) * 64 + (0x80 + c % 64 - 0x80) = c := by omega
      simp only [List.cons_append, List.nil_append, utf8Dec]
      rw [if_neg (by omega), if_pos (by omega), e4, if_pos ⟨by omega, by omega, by omega, hs⟩]
    · split
      · rename_i h1 h2 h3
        have e4 : ((0xE0 + c / 4096 - 0xE0) * 64 + (0x80 + c / 64 % 64 - 0x80)) * 64 + (0x80 + c % 64 - 0x80) = c := by
          omega
        simp only [List.cons_append, List.nil_append, utf8Dec]
        rw [if_neg (by omega), if_neg (by omega), if_pos (by omega), if_pos (by omega), e4,
          if_pos ⟨by omega, by omega, by omega, hs⟩]
      · rename_i h1 h2 h3
        have e4 : (((0xF0 + c / 262144 - 0xF0) * 64 + (0x80 + c / 4096 % 64 - 0x80)) * 64 +
            (0x80 + c / 64 % 64 - 0x80)) * 64 + (0x80 + c % 64 - 0x80) = c := by omega
        simp only [List.cons_append, List.nil_append, utf8Dec]
        rw [if_neg (by omega), if_neg (by omega), if_neg (by omega), if_pos (by omega), if_pos (by omega),
          if_pos (by omega), e4, if_pos ⟨by omega, by omega, by omega, hs⟩]

/-- Decoding an encoded text gives the text back. -/
theorem utf8Decode_encode (s b : List Nat) (h : utf8Encode s = some b) : utf8Decode b = some s := by
  induction s generalizing b with
  | nil => cases h; rfl
  | cons c s ih =>
    simp only [utf8Encode] at h
    split at h
    · rename_i hc
      cases hs : utf8Encode s with
      | none => rw [hs] at h; cases h
      | some b' =>
        rw [hs] at h
        simp only [Option.map_some, Option.some.injEq] at h
        subst h
        rw [utf8Decode_char c hc, ih b' hs]; rfl
    · cases h

theorem utf8Encode_append (s t : List Nat) :
    utf8Encode (s ++ t) = (utf8Encode s).bind fun a => (utf8Encode t).map (a ++ ·) := by
  induction s with
  | nil => cases h : utf8Encode t <;> simp [utf8Encode, h]
  | cons c s ih =>
    simp only [List.cons_append, utf8Encode, ih]
    split
    · cases utf8Encode s <;> cases utf8Encode t <;> simp
    · rfl

theorem utf8Encode_ascii (s : List Nat) (h : ∀ c ∈ s, c < 0x80) : utf8Encode s = some s := by
  induction s with
  | nil => rfl
  | cons c s ih =>
    have hc := h c (by simp)
    have : IsScalar c := by unfold IsScalar; omega
    simp only [utf8Encode, if_pos this, ih (fun x hx => h x (List.mem_cons_of_mem _ hx)), utf8Char, if_pos hc]
    rfl

theorem utf8Decode_ascii (s : List Nat) (h : ∀ c ∈ s, c < 0x80) : utf8Decode s = some s :=
  utf8Decode_encode s s (utf8Encode_ascii s h)

/-- A multi-byte character contains no ASCII byte. -/
theorem utf8Char_high (c : Nat) (h : ¬ c < 0x80) : ∀ b ∈ utf8Char c, 0x80 ≤ b := by
  unfold utf8Char
  rw [if_neg h]
  split
  · intro b hb; simp at hb; omega
  · split
    · intro b hb; simp at hb; omega
    · intro b hb; simp at hb; omega

theorem utf8Char_ne_nil (c : Nat) : utf8Char c ≠ [] := by
  unfold utf8Char
  split
  · simp
  · split
    · simp
    · split <;> simp

theorem utf8Encode_length_le (s b : List Nat) (h : utf8Encode s = some b) : s.length ≤ b.length := by
  induction s generalizing b with
  | nil => simp
  | cons c s ih =>
    simp only [utf8Encode] at h
    split at h
    · cases hs : utf8Encode s with
      | none => rw [hs] at h; cases h
      | some b' =>
        rw [hs] at h
        simp only [Option.map_some, Option.some.injEq] at h
        subst h
        have := ih b' hs
        have h2 : 0 < (utf8Char c).length := List.length_pos_iff.2 (utf8Char_ne_nil c)
        simp only [List.length_cons, List.length_append]; omega
    · cases h

example : utf8Encode [0x65, 0xE9, 0x20AC, 0x1F600] =
    some [0x65, 0xC3, 0xA9, 0xE2, 0x82, 0xAC, 0xF0, 0x9F, 0x98, 0x80] := by decide
example : utf8Encode [0xD800] = none := by decide
example : utf8Decode [0xC0, 0x80] = none := by decide
example : utf8Decode [0xED, 0xA0, 0x80] = none := by decide
example : utf8Decode [0xF4, 0x90, 0x80, 0x80] = none := by decide

/-- The decoder accepts only what the encoder makes, whatever bytes it is given. -/
theorem utf8Encode_decode (b s : List Nat) (h : utf8Decode b = some s) : utf8Encode s = some b := by
  unfold utf8Decode at h
  induction hn : b.length using Nat.strongRecOn generalizing b s with
  | ind n ih =>
    subst hn
    have cont : ∀ (c : Nat) (hd r : List Nat), IsScalar c → hd = utf8Char c → hd ≠ [] →
        (utf8Dec 0 0 0 r).map (c :: ·) = some s → b = hd ++ r → utf8Encode s = some b := by
      intro c hd r hc he hne hm hb
      cases hr : utf8Dec 0 0 0 r with
      | none => rw [hr] at hm; cases hm
      | some t =>
        rw [hr] at hm
        simp only [Option.map_some, Option.some.injEq] at hm
        subst hm
        have hl : r.length < b.length := by
          rw [hb, List.length_append]
          have := List.length_pos_iff.2 hne
          omega
        simp only [utf8Encode, if_pos hc, ih r.length hl r t hr rfl, Option.map_some, hb, he]
    match b with
    | [] => simp only [utf8Dec, Option.some.injEq] at h; subst h; rfl
    | b0 :: r =>
      simp only [utf8Dec] at h
      split at h
      · rename_i h0
        exact cont b0 [b0] r (by unfold IsScalar; omega) (by simp [utf8Char, h0]) (by simp) h rfl
      · split at h
        · rename_i h0 h1
          match r with
          | [] => simp [utf8Dec] at h
          | b1 :: r =>
            simp only [utf8Dec] at h
            split at h
            · rename_i h2
              refine cont _ [b0, b1] r h2.2.2.2 ?_ (by simp) h rfl
              unfold utf8Char
              rw [if_neg (by omega), if_pos (by omega)]
              simp only [List.cons.injEq, and_true]
              omega
            · cases h
        · split at h
          · rename_i h0 _ h1
            match r with
            | [] => simp [utf8Dec] at h
            | [b1] =>
              simp only [utf8Dec] at h
              split at h <;> cases h
            | b1 :: b2 :: r =>
              simp only [utf8Dec] at h
              split at h
              · split at h
                · rename_i h3 h2
                  refine cont _ [b0, b1, b2] r h2.2.2.2 ?_ (by simp) h rfl
                  unfold utf8Char
                  rw [if_neg (by omega), if_neg (by omega), if_pos (by omega)]
                  simp only [List.cons.injEq, and_true]
                  omega
                · cases h
              · cases h
          · split at h
            · rename_i h0 _ _ h1
              match r with
              | [] => simp [utf8Dec] at h
              | [b1] =>
                simp only [utf8Dec] at h
                split at h <;> cases h
              | [b1, b2] =>
                simp only [utf8Dec] at h
                split at h
                · split at h <;> cases h
                · cases h
              | b1 :: b2 :: b3 :: r =>
                simp only [utf8Dec] at h
                split at h
                · split at h
                  · split at h
                    · rename_i h4 h3 h2
                      refine cont _ [b0, b1, b2, b3] r h2.2.2.2 ?_ (by simp) h rfl
                      have hs := h2.2.2.2
                      unfold IsScalar at hs
                      unfold utf8Char
                      rw [if_neg (by omega), if_neg (by omega), if_neg (by omega)]
                      simp only [List.cons.injEq, and_true]
                      omega
                    · cases h
                  · cases h
                · cases h
            · cases h

end Verif.Py
