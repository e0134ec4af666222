import Verif.Props.JuiceArgs
import Verif.Props.ExtimeIso
import Verif.Lemmas.Path
/-!
# The remaining juice argument types: C82

`Time` works.  `Unicode`, `EncodedString` and `Path` produce `bytes`, which they can read back themselves, but what
arrives over the wire is `str`, which they cannot read.  `Base64Binary` cannot even write.
-/
namespace Verif.JuiceArgs
open Verif.Py
open Verif.Py.Path (Name canon abspath_canon abspath_shape)
open Verif.Juice Verif.Extime

/-! ## `Time` -/

theorem padZero_ascii (w n : Nat) : ∀ c ∈ padZero w n, c < 128 := by
  intro c hc
  have := padZero_isDigit w n c hc
  unfold isDigit at this
  simp at this; omega

theorem rstrip0_sub (s : List Nat) : ∀ c ∈ rstrip0 s, c ∈ s := by
  intro c hc
  unfold rstrip0 at hc
  rw [List.mem_reverse] at hc
  exact List.mem_reverse.1 ((List.dropWhile_suffix _).subset hc)

/-- What `asISO8601TimeAndDate` prints is ASCII. -/
theorem asIso_ascii {x : Time} {b incl : Bool} {tz : Option Tz} {s : List Nat} (h : asIso x b tz incl = .ok s) :
    ∀ c ∈ s, c < 128 := by
  have hsep : ∀ n, n < 128 → ∀ c ∈ (if b then [n] else ([] : List Nat)), c < 128 := by
    intro n hn c hc
    split at hc
    · simp at hc; omega
    · cases hc
  have hzone : ∀ tz, ∀ c ∈ timezoneText (if b then [58] else []) tz incl, c < 128 := by
    intro tz c hc
    unfold timezoneText at hc
    split at hc
    · split at hc
      · simp only [List.mem_append] at hc
        rcases hc with (hc | hc) | hc
        · simp at hc; omega
        · exact hsep 58 (by omega) c hc
        · simp at hc; omega
      · simp only [List.mem_append] at hc
        rcases hc with ((hc | hc) | hc) | hc
        · simp at hc; split at hc <;> omega
        · exact padZero_ascii _ _ c hc
        · exact hsep 58 (by omega) c hc
        · exact padZero_ascii _ _ c hc
    · cases hc
  unfold asIso at h
  simp only at h
  split at h
  · cases h
  · rename_i a ha
    cases h
    intro c hc
    rw [List.mem_flatMap] at hc
    obtain ⟨p, hp, hc⟩ := hc
    have hp := (List.mem_filter.1 hp).1
    simp only [List.mem_cons, List.not_mem_nil, or_false] at hp
    rcases hp with rfl | rfl | rfl | rfl | rfl | rfl | rfl | rfl | rfl
    · exact padZero_ascii _ _ c hc
    · rcases List.mem_append.1 hc with hc | hc
      · exact hsep 45 (by omega) c hc
      · exact padZero_ascii _ _ c hc
    · rcases List.mem_append.1 hc with hc | hc
      · exact hsep 45 (by omega) c hc
      · exact padZero_ascii _ _ c hc
    · simp at hc; omega
    · exact padZero_ascii _ _ c hc
    · rcases List.mem_append.1 hc with hc | hc
      · exact hsep 58 (by omega) c hc
      · exact padZero_ascii _ _ c hc
    · rcases List.mem_append.1 hc with hc | hc
      · exact hsep 58 (by omega) c hc
      · exact padZero_ascii _ _ c hc
    · simp only at hc
      split at hc
      · rcases List.mem_cons.1 hc with rfl | hc
        · omega
        · exact padZero_ascii _ _ c (rstrip0_sub _ c hc)
      · exact padZero_ascii _ _ c (rstrip0_sub _ c hc)
    · exact hzone _ c hc

/-- C82: every instant of the finest resolution survives `Time`. -/
theorem time_survives (D : Digits) (o : Bool) (x : Time) (hx : x.t.Valid) (hr : x.res ≤ 1) :
    Survives (timeArg D o) (.time x) := by
  obtain ⟨s, y, h1, h2, -, h3⟩ := iso_roundtrip D hx hr true true
  refine ⟨.text s, s, by simp [timeArg, h1, Except.map], rfl, ?_, ?_, ?_⟩
  · exact fun c hc => .inl (by have := asIso_ascii h1 c hc; omega)
  all_goals exact ⟨.time y, by simp [timeArg, h2, Except.map], .time h3.symm⟩

/-- C82: a coarser `Time` (up to a year, before 9999) arrives as the beginning of the printed period that contains it;
so it survives exactly if it is that beginning. -/
theorem time_truncated (D : Digits) (o : Bool) (x : Time) (hx : x.t.Valid) (hr : x.res ≤ 366 * dayUs)
    (h9 : 31 * dayUs < x.res → x.t.year < 9999) :
    ∃ s y, (timeArg D o).enc (.time x) = .ok (.text s) ∧ (timeArg D o).dec (.text s) = .ok (.time y) ∧
      y.start = periodStart x.res x.t ∧ (Survives (timeArg D o) (.time x) ↔ periodStart x.res x.t = x.start) := by
  obtain ⟨s, y, h1, h2, h3, h4, -, h5⟩ := iso_truncates_partial D hx hr h9 true true
  have he : (timeArg D o).enc (.time x) = .ok (.text s) := by simp [timeArg, h1, Except.map]
  have hd : (timeArg D o).dec (.text s) = .ok (.time y) := by simp [timeArg, h2, Except.map]
  refine ⟨s, y, he, hd, h4, ?_⟩
  rw [← h4]
  constructor
  · rintro ⟨v, t, g1, -, -, ⟨z, g2, g3⟩, -⟩
    rw [he, Except.ok.injEq] at g1; subst g1
    rw [hd, Except.ok.injEq] at g2; subst g2
    cases g3 with
    | time h => unfold Time.start; rw [h]
  · intro e
    have ht : x.t = y.t := DT.toUs_inj hx h3 (by unfold Time.start at e; exact e.symm)
    exact ⟨.text s, s, he, rfl, fun c hc => .inl (by have := asIso_ascii h1 c hc; omega), ⟨_, hd, .time ht⟩, ⟨_, hd, .time ht⟩⟩

/-! ## `Unicode`, `EncodedString`, `Path` -/

/-- C82, locally: text survives an encoding that can represent it, if what was encoded is decoded directly. -/
theorem encodedString_partial (e : Encoding) (o : Bool) (s : Str) (b : Bytes) (h1 : e.encode s = some b)
    (h2 : e.decode b = some s) :
    (encodedString e o).enc (.str s) = .ok (.raw b) ∧ (encodedString e o).dec (.raw b) = .ok (.str s) :=
  ⟨by simp [encodedString, h1], by simp [encodedString, h2]⟩

theorem utf8Encode_some (s : Str) (h : ∀ c ∈ s, IsScalar c) : ∃ b, utf8Encode s = some b := by
  induction s with
  | nil => exact ⟨[], rfl⟩
  | cons c s ih =>
    obtain ⟨b, hb⟩ := ih fun c hc => h c (List.mem_cons_of_mem _ hc)
    refine ⟨utf8Char c ++ b, ?_⟩
    have hc := h c (by simp)
    simp [utf8Encode, hc, hb]

/-- C82, locally: every well-formed text survives `Unicode`. -/
theorem unicode_partial (o : Bool) (s : Str) (h : ∀ c ∈ s, IsScalar c) :
    ∃ b, (unicode o).enc (.str s) = .ok (.raw b) ∧ (unicode o).dec (.raw b) = .ok (.str s) := by
  obtain ⟨b, hb⟩ := utf8Encode_some s h
  exact ⟨b, encodedString_partial utf8 o s b hb (utf8Decode_encode s b hb)⟩

/-- C82, locally: every absolute, normalised path survives `Path`. -/
theorem path_partial (cwd : Str) (o : Bool) (n : Nat) (hn : n = 1 ∨ n = 2) (comps : List Str) (hc : ∀ c ∈ comps, Name c)
    (h : ∀ c ∈ canon n comps, IsScalar c) :
    ∃ b, (pathArg cwd o).enc (.path (canon n comps)) = .ok (.raw b) ∧
      (pathArg cwd o).dec (.raw b) = .ok (.path (canon n comps)) := by
  obtain ⟨b, h1, h2⟩ := unicode_partial o _ h
  refine ⟨b, h1, ?_⟩
  simp only [pathArg, h2, bind, Except.bind, abspath_canon cwd n hn comps hc]
  rfl

/-- C82: whatever `Path` reads is an absolute, normalised path; one that was relative is taken from the working directory. -/
theorem path_reads (m : Nat) (hm : m = 1 ∨ m = 2) (cwd : List Str) (hc : ∀ c ∈ cwd, Name c) (o : Bool) (v : Val) (x : Obj)
    (h : (pathArg (canon m cwd) o).dec v = .ok x) :
    ∃ n comps, (n = 1 ∨ n = 2) ∧ (∀ c ∈ comps, Name c) ∧ x = .path (canon n comps) := by
  cases hu : (unicode o).dec v with
  | error e => simp [pathArg, hu, bind, Except.bind] at h
  | ok y =>
    cases y with
    | str s =>
      obtain ⟨n, comps, h1, h2, h3⟩ := abspath_shape m hm cwd hc s
      refine ⟨n, comps, h1, h2, ?_⟩
      simp [pathArg, hu, bind, Except.bind, pure, Except.pure] at h
      rw [← h, h3]
    | _ => simp [pathArg, hu, bind, Except.bind] at h

/-- C82 is false over the wire for these types: whatever arrives is `str`, and they refuse all of it. -/
theorem encoded_wire_fails (e : Encoding) (cwd : Str) (o : Bool) (t : Str) :
    (encodedString e o).dec (.text t) = .error .attributeError ∧ (unicode o).dec (.text t) = .error .attributeError ∧
      (pathArg cwd o).dec (.text t) = .error .attributeError :=
  ⟨rfl, rfl, rfl⟩

/-- So nothing at all survives them. -/
theorem encoded_survives_fails (e : Encoding) (cwd : Str) (o : Bool) (x : Obj) :
    ¬ Survives (encodedString e o) x ∧ ¬ Survives (unicode o) x ∧ ¬ Survives (pathArg cwd o) x := by
  refine ⟨?_, ?_, ?_⟩ <;>
  · rintro ⟨v, t, -, -, -, -, ⟨y, h, -⟩⟩
    first
      | rw [(encoded_wire_fails e cwd o t).1] at h; cases h
      | rw [(encoded_wire_fails e cwd o t).2.1] at h; cases h
      | rw [(encoded_wire_fails e cwd o t).2.2] at h; cases h

/-- C82 is false for `Base64Binary`: it encodes nothing and decodes nothing; `str` have no such codec, `bytes` no `encode`, and
the other way round. -/
theorem base64Binary_fails (o : Bool) (x : Obj) (v : Val) :
    ((∃ s, x = .str s) → (base64Binary o).enc x = .error (.other "LookupError")) ∧
    ((∀ s, x ≠ .str s) → (base64Binary o).enc x = .error .attributeError) ∧
    (∀ b, v = .raw b → (base64Binary o).dec v = .error (.other "LookupError")) ∧
    (∀ s, v = .text s → (base64Binary o).dec v = .error .attributeError) := by
  refine ⟨?_, ?_, ?_, ?_⟩
  · rintro ⟨s, rfl⟩; rfl
  · intro h
    cases x <;> first | rfl | exact absurd rfl (h _)
  · rintro b rfl; rfl
  · rintro s rfl; rfl

/-- C82 is false for `bytes` given to `String`: they arrive, if at all, as `str`. -/
theorem string_bytes_fails (o : Bool) (b : Bytes) :
    (string o).enc (.bytes b) = .ok (.raw b) ∧ ¬ Survives (string o) (.bytes b) := by
  refine ⟨rfl, ?_⟩
  rintro ⟨v, t, -, -, -, -, ⟨y, h, hs⟩⟩
  cases h
  cases hs

/-! ### Concrete cases -/

/-- 2024-02-29T23:59:59.000120 -/
example : Survives (timeArg asciiDigits false) (.time ⟨⟨2024, 2, 29, 23, 59, 59, 120⟩, 1⟩) :=
  time_survives _ _ _ (by decide) (by decide)

/-- `u'é'` -/
example : (unicode false).enc (.str [233]) = .ok (.raw [195, 169]) ∧
    (unicode false).dec (.raw [195, 169]) = .ok (.str [233]) := ⟨rfl, rfl⟩

/-- A `Time` of one hour does not survive at half past. -/
example : ¬ Survives (timeArg asciiDigits false) (.time ⟨⟨2024, 2, 29, 23, 30, 0, 0⟩, 3600000000⟩) := by
  obtain ⟨s, y, -, -, -, h⟩ := time_truncated asciiDigits false ⟨⟨2024, 2, 29, 23, 30, 0, 0⟩, 3600000000⟩ (by decide)
    (by decide) (by decide)
  rw [h]
  decide +kernel

end Verif.JuiceArgs
