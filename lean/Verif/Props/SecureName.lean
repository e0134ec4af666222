import Verif.Model.SecureName
import Verif.Props.FilePathCreate
/-!
# C129: names of temporary files

The name has 16 characters that are safe in a file name; it is a one-to-one encoding of the first 12 bytes of the digest (8 with the
fallback), so no randomness of these is lost; and so temporary siblings can always be named.
-/
namespace Verif.SecureName
open Verif.Py Verif.Py.Path Verif.FilePath

/-- Letters, digits, `-` and `_`. -/
def Safe (c : Nat) : Prop := (65 ≤ c ∧ c ≤ 90) ∨ (97 ≤ c ∧ c ≤ 122) ∨ (48 ≤ c ∧ c ≤ 57) ∨ c = 45 ∨ c = 95

/-- Lower-case hexadecimal digits. -/
def Hex (c : Nat) : Prop := (48 ≤ c ∧ c ≤ 57) ∨ (97 ≤ c ∧ c ≤ 102)

theorem char_safe (d : Nat) : Safe (Base64.char d) := by
  unfold Base64.char Safe; repeat' split
  all_goals omega

theorem char_injective {a b : Nat} (ha : a < 64) (hb : b < 64) (h : Base64.char a = Base64.char b) : a = b := by
  unfold Base64.char at h; repeat' split at h
  all_goals omega

theorem char_surjective {c : Nat} (h : Safe c) : ∃ d, d < 64 ∧ Base64.char d = c := by
  rcases h with h | h | h | h | h
  · exact ⟨c - 65, by omega, by unfold Base64.char; split <;> omega⟩
  · refine ⟨c - 71, by omega, ?_⟩
    unfold Base64.char; repeat' split
    all_goals omega
  · refine ⟨c + 4, by omega, ?_⟩
    unfold Base64.char; repeat' split
    all_goals omega
  · exact ⟨62, by omega, by rw [h]; rfl⟩
  · exact ⟨63, by omega, by rw [h]; rfl⟩

theorem hexChar_hex {d : Nat} (h : d < 16) : Hex (Base64.hexChar d) := by
  unfold Base64.hexChar Hex; split <;> omega

theorem hexChar_injective {a b : Nat} (ha : a < 16) (hb : b < 16) (h : Base64.hexChar a = Base64.hexChar b) : a = b := by
  unfold Base64.hexChar at h; repeat' split at h
  all_goals omega

theorem hexChar_surjective {c : Nat} (h : Hex c) : ∃ d, d < 16 ∧ Base64.hexChar d = c := by
  rcases h with h | h
  · exact ⟨c - 48, by omega, by unfold Base64.hexChar; split <;> omega⟩
  · exact ⟨c - 87, by omega, by unfold Base64.hexChar; split <;> omega⟩

/-- Groups of three bytes are groups of four characters. -/
theorem encode_take (s : List Nat) (k : Nat) (h : 3 * k ≤ s.length) :
    (Base64.encode s).take (4 * k) = Base64.encode (s.take (3 * k)) := by
  induction k generalizing s with
  | zero => rfl
  | succ k ih =>
    match s, h with
    | a :: b :: c :: r, h =>
      have e4 : 4 * (k + 1) = 4 * k + 1 + 1 + 1 + 1 := by ring
      have e3 : 3 * (k + 1) = 3 * k + 1 + 1 + 1 := by ring
      rw [e4, e3]
      simp only [List.take_succ_cons, Base64.encode]
      rw [ih r (by simp at h; omega)]

theorem encode_length (s : List Nat) (k : Nat) (h : s.length = 3 * k) : (Base64.encode s).length = 4 * k := by
  induction k generalizing s with
  | zero => have := List.length_eq_zero_iff.1 (show s.length = 0 by omega); subst this; rfl
  | succ k ih =>
    match s, h with
    | a :: b :: c :: r, h =>
      simp only [Base64.encode, List.length_cons]
      rw [ih r (by simp at h; omega)]
      ring

theorem encode_safe (s : List Nat) (k : Nat) (h : s.length = 3 * k) : ∀ c ∈ Base64.encode s, Safe c := by
  induction k generalizing s with
  | zero => have := List.length_eq_zero_iff.1 (show s.length = 0 by omega); subst this; intro c hc; cases hc
  | succ k ih =>
    match s, h with
    | x :: y :: z :: r, h =>
      simp only [Base64.encode, List.mem_cons]
      rintro c (rfl | rfl | rfl | rfl | hc)
      · exact char_safe _
      · exact char_safe _
      · exact char_safe _
      · exact char_safe _
      · exact ih r (by simp at h; omega) c hc

theorem encode_injective (s t : List Nat) (k : Nat) (hs : s.length = 3 * k) (ht : t.length = 3 * k) (bs : ∀ c ∈ s, c < 256)
    (bt : ∀ c ∈ t, c < 256) (h : Base64.encode s = Base64.encode t) : s = t := by
  induction k generalizing s t with
  | zero =>
    rw [List.length_eq_zero_iff.1 (show s.length = 0 by omega), List.length_eq_zero_iff.1 (show t.length = 0 by omega)]
  | succ k ih =>
    match s, t, hs, ht with
    | a :: b :: c :: r, a' :: b' :: c' :: r', hs, ht =>
      simp only [Base64.encode, List.cons.injEq] at h
      obtain ⟨h1, h2, h3, h4, h5⟩ := h
      have ba := bs a (by simp); have bb := bs b (by simp); have bc := bs c (by simp)
      have ba' := bt a' (by simp); have bb' := bt b' (by simp); have bc' := bt c' (by simp)
      have e1 := char_injective (by omega) (by omega) h1
      have e2 := char_injective (by omega) (by omega) h2
      have e3 := char_injective (by omega) (by omega) h3
      have e4 := char_injective (by omega) (by omega) h4
      rw [ih r r' (by simp at hs; omega) (by simp at ht; omega) (fun c hc => bs c (by simp [hc])) (fun c hc => bt c (by simp [hc])) h5,
        show a = a' by omega, show b = b' by omega, show c = c' by omega]

theorem encode_surjective (k : Nat) (t : List Nat) (ht : t.length = 4 * k) (h : ∀ c ∈ t, Safe c) :
    ∃ s, s.length = 3 * k ∧ (∀ c ∈ s, c < 256) ∧ Base64.encode s = t := by
  induction k generalizing t with
  | zero => exact ⟨[], by simp, by simp, by rw [List.length_eq_zero_iff.1 (show t.length = 0 by omega)]; rfl⟩
  | succ k ih =>
    match t, ht with
    | w :: x :: y :: z :: r, ht =>
      obtain ⟨s, h1, h2, h3⟩ := ih r (by simp at ht; omega) (fun c hc => h c (by simp [hc]))
      obtain ⟨w, hw, rfl⟩ := char_surjective (h w (by simp))
      obtain ⟨x, hx, rfl⟩ := char_surjective (h _ (by simp : x ∈ _))
      obtain ⟨y, hy, rfl⟩ := char_surjective (h _ (by simp : y ∈ _))
      obtain ⟨z, hz, rfl⟩ := char_surjective (h _ (by simp : z ∈ _))
      refine ⟨(w * 4 + x / 16) :: (x % 16 * 16 + y / 4) :: (y % 4 * 64 + z) :: s, by simp [h1]; ring, ?_, ?_⟩
      · intro c hc
        simp only [List.mem_cons] at hc
        rcases hc with rfl | rfl | rfl | hc
        · omega
        · omega
        · omega
        · exact h2 c hc
      · simp only [Base64.encode, h3]
        congr 1
        · congr 1; omega
        · congr 1
          · congr 1; omega
          · congr 1
            · congr 1; omega
            · congr 1; congr 1; omega

theorem hex_take (s : List Nat) (k : Nat) : (Base64.hex s).take (2 * k) = Base64.hex (s.take k) := by
  induction k generalizing s with
  | zero => rfl
  | succ k ih =>
    cases s with
    | nil => simp [Base64.hex]
    | cons a r =>
      rw [show 2 * (k + 1) = 2 * k + 1 + 1 by ring]
      simp only [List.take_succ_cons, Base64.hex]
      rw [ih r]

theorem hex_length (s : List Nat) : (Base64.hex s).length = 2 * s.length := by
  induction s with
  | nil => rfl
  | cons a r ih => simp [Base64.hex, ih]; ring

theorem hex_hex (s : List Nat) (b : ∀ c ∈ s, c < 256) : ∀ c ∈ Base64.hex s, Hex c := by
  induction s with
  | nil => intro c hc; cases hc
  | cons a r ih =>
    have := b a (by simp)
    simp only [Base64.hex, List.mem_cons]
    rintro c (rfl | rfl | hc)
    · exact hexChar_hex (by omega)
    · exact hexChar_hex (by omega)
    · exact ih (fun c hc => b c (by simp [hc])) c hc

theorem hex_injective (s t : List Nat) (bs : ∀ c ∈ s, c < 256) (bt : ∀ c ∈ t, c < 256) (h : Base64.hex s = Base64.hex t) : s = t := by
  induction s generalizing t with
  | nil =>
    cases t with
    | nil => rfl
    | cons a r => cases h
  | cons a r ih =>
    cases t with
    | nil => cases h
    | cons a' r' =>
      simp only [Base64.hex, List.cons.injEq] at h
      obtain ⟨h1, h2, h3⟩ := h
      have ba := bs a (by simp); have ba' := bt a' (by simp)
      have e1 := hexChar_injective (by omega) (by omega) h1
      have e2 := hexChar_injective (by omega) (by omega) h2
      rw [ih r' (fun c hc => bs c (by simp [hc])) (fun c hc => bt c (by simp [hc])) h3, show a = a' by omega]

/-- 20 bytes. -/
def Digest (d : List Nat) : Prop := d.length = 20 ∧ ∀ c ∈ d, c < 256

/-- The string has 16 characters, all of them letters, digits, `-` or `_`. -/
theorem armored_safe {d : List Nat} (h : Digest d) :
    (armored true d).length = 16 ∧ ∀ c ∈ armored true d, Safe c := by
  have e : armored true d = Base64.encode (d.take 12) := encode_take d 4 (by rw [h.1]; omega)
  have l : (d.take 12).length = 3 * 4 := by rw [List.length_take, h.1]; rfl
  rw [e]
  exact ⟨encode_length _ 4 l, encode_safe _ 4 l⟩

/-- With the fallback, 16 hexadecimal digits. -/
theorem armored_hex {d : List Nat} (h : Digest d) :
    (armored false d).length = 16 ∧ ∀ c ∈ armored false d, Hex c := by
  have e : armored false d = Base64.hex (d.take 8) := hex_take d 8
  rw [e]
  refine ⟨?_, hex_hex _ fun c hc => h.2 c (List.mem_of_mem_take hc)⟩
  rw [hex_length, List.length_take, h.1]
  rfl

/-- Two strings are the same exactly if the digests agree in the first 12 bytes, or 8 with the fallback. -/
theorem armored_same {d e : List Nat} (hd : Digest d) (he : Digest e) :
    (armored true d = armored true e ↔ d.take 12 = e.take 12) ∧
    (armored false d = armored false e ↔ d.take 8 = e.take 8) := by
  have e1 : ∀ {d}, Digest d → armored true d = Base64.encode (d.take 12) := fun h => encode_take _ 4 (by rw [h.1]; omega)
  have e2 : ∀ d, armored false d = Base64.hex (d.take 8) := fun d => hex_take d 8
  rw [e1 hd, e1 he, e2, e2]
  refine ⟨⟨fun h => ?_, fun h => by rw [h]⟩, ⟨fun h => ?_, fun h => by rw [h]⟩⟩
  · exact encode_injective _ _ 4 (by rw [List.length_take, hd.1]; rfl) (by rw [List.length_take, he.1]; rfl)
      (fun c hc => hd.2 c (List.mem_of_mem_take hc)) (fun c hc => he.2 c (List.mem_of_mem_take hc)) h
  · exact hex_injective _ _ (fun c hc => hd.2 c (List.mem_of_mem_take hc)) (fun c hc => he.2 c (List.mem_of_mem_take hc)) h

/-- Every string of 16 such characters comes from some digest: all 64¹⁶ are possible. -/
theorem armored_all {s : Str} (hl : s.length = 16) (hs : ∀ c ∈ s, Safe c) : ∃ d, Digest d ∧ armored true d = s := by
  obtain ⟨p, h1, h2, h3⟩ := encode_surjective 4 s hl hs
  refine ⟨p ++ List.replicate 8 0, ⟨by simp [h1], ?_⟩, ?_⟩
  · intro c hc
    rw [List.mem_append, List.mem_replicate] at hc
    rcases hc with hc | ⟨-, rfl⟩
    · exact h2 c hc
    · omega
  · show (Base64.encode (p ++ List.replicate 8 0)).take (4 * 4) = s
    rw [encode_take _ 4 (by simp [h1]), List.take_append_of_le_length (by omega), ← h1, List.take_length, h3]

/-! ## The strings -/

theorem digest (m : List Nat) : Digest (Sha1.digest m) := ⟨Sha1.digest_length m, Sha1.digest_lt m⟩

/-- **C129.** Whatever the random bytes, the string has 16 characters, all of them letters, digits, `-` or `_`; with the fallback for old
Pythons, 16 hexadecimal digits. -/
theorem secure_safe (random : List Nat) :
    ((secureEnoughString true random).length = 16 ∧ ∀ c ∈ secureEnoughString true random, Safe c) ∧
    ((secureEnoughString false random).length = 16 ∧ ∀ c ∈ secureEnoughString false random, Hex c) :=
  ⟨armored_safe (digest random), armored_hex (digest random)⟩

/-- **C129.** Two strings are the same exactly if the first 12 bytes of the digests are, 8 with the fallback. -/
theorem secure_same (r₁ r₂ : List Nat) :
    (secureEnoughString true r₁ = secureEnoughString true r₂ ↔ (Sha1.digest r₁).take 12 = (Sha1.digest r₂).take 12) ∧
    (secureEnoughString false r₁ = secureEnoughString false r₂ ↔ (Sha1.digest r₁).take 8 = (Sha1.digest r₂).take 8) :=
  armored_same (digest r₁) (digest r₂)

theorem safe_slash {c : Nat} (h : Safe c) : c ≠ 47 := by unfold Safe at h; omega
theorem hex_slash {c : Nat} (h : Hex c) : c ≠ 47 := by unfold Hex at h; omega

theorem secure_plain (urlsafe : Bool) (random : List Nat) :
    (secureEnoughString urlsafe random).length = 16 ∧ 47 ∉ secureEnoughString urlsafe random := by
  have h := secure_safe random
  cases urlsafe with
  | true => exact ⟨h.1.1, fun hm => safe_slash (h.1.2 _ hm) rfl⟩
  | false => exact ⟨h.2.1, fun hm => hex_slash (h.2.2 _ hm) rfl⟩

/-- **C129.** Whatever the random bytes, the temporary sibling of a path other than the root is a path in the same directory with the
16 characters in front of its name. -/
theorem sibling_named (urlsafe : Bool) (cwd : Str) {n : Nat} {comps : List Str} {c : Str} (h : IsDir n (comps ++ [c]))
    (random : List Nat) :
    temporarySibling urlsafe cwd (canon n (comps ++ [c])) random =
      .ok (canon n (comps ++ [secureEnoughString urlsafe random ++ c]), true) :=
  (temporarySibling_place cwd h _ (secure_plain urlsafe random).1 (secure_plain urlsafe random).2).1

/-- **C129.** Two temporary siblings of one path are the same path exactly if the digests agree in the first 12 bytes, or 8 with the
fallback. -/
theorem sibling_same (cwd : Str) {n : Nat} {comps : List Str} {c : Str} (h : IsDir n (comps ++ [c])) (r₁ r₂ : List Nat) :
    (temporarySibling true cwd (canon n (comps ++ [c])) r₁ = temporarySibling true cwd (canon n (comps ++ [c])) r₂ ↔
      (Sha1.digest r₁).take 12 = (Sha1.digest r₂).take 12) ∧
    (temporarySibling false cwd (canon n (comps ++ [c])) r₁ = temporarySibling false cwd (canon n (comps ++ [c])) r₂ ↔
      (Sha1.digest r₁).take 8 = (Sha1.digest r₂).take 8) := by
  have key : ∀ u, temporarySibling u cwd (canon n (comps ++ [c])) r₁ = temporarySibling u cwd (canon n (comps ++ [c])) r₂ ↔
      secureEnoughString u r₁ = secureEnoughString u r₂ := by
    intro u
    rw [sibling_named u cwd h r₁, sibling_named u cwd h r₂]
    refine ⟨fun hh => ?_, fun hh => by rw [hh]⟩
    have hc : 47 ∉ c := (h.names c (by simp)).2.1
    have hh := (Prod.mk.injEq _ _ _ _ ▸ Except.ok.inj hh).1
    have h1 := (basename_canon n h.slashes comps (secureEnoughString u r₁ ++ c) (by simp [(secure_plain u r₁).2, hc])).1
    have h2 := (basename_canon n h.slashes comps (secureEnoughString u r₂ ++ c) (by simp [(secure_plain u r₂).2, hc])).1
    rw [hh, h2] at h1
    exact (List.append_cancel_right h1).symm
  rw [key, key]
  exact secure_same r₁ r₂

/-- **C129.** The fallback for `os.urandom` gives as many bytes as asked for, each of them what was drawn. -/
theorem random_bytes (draws : Nat → Nat) (h : ∀ i, draws i < 256) (n : Nat) :
    (randomBytes draws n).length = n ∧ ∀ i < n, (randomBytes draws n)[i]? = some (draws i) := by
  refine ⟨by simp [randomBytes], fun i hi => ?_⟩
  simp [randomBytes, hi, Nat.mod_eq_of_lt (h i)]

/-- The bytes 0 to 63: the digest is `c6138d514ffa2135bfce0ed0b8fac65669917ec7`. -/
example :
    let r := randomBytes id 64
    secureEnoughString true r = ("xhONUU_6ITW_zg7Q".toList.map Char.toNat) ∧
    secureEnoughString false r = ("c6138d514ffa2135".toList.map Char.toNat) ∧
    temporarySibling true [47] [47, 97] r = .ok (("/xhONUU_6ITW_zg7Qa".toList.map Char.toNat), true) :=
  ⟨by decide +kernel, by decide +kernel, by decide +kernel⟩

/-- `abc`, from FIPS 180-1. -/
example : Sha1.digest [97, 98, 99] =
    [0xa9, 0x99, 0x3e, 0x36, 0x47, 0x06, 0x81, 0x6a, 0xba, 0x3e, 0x25, 0x71, 0x78, 0x50, 0xc2, 0x6c, 0x9c, 0xd0, 0xd8, 0x9d] := by
  decide +kernel

end Verif.SecureName
