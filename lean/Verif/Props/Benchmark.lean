import Verif.Model.Benchmark
import Verif.Props.Structlike
import Verif.Lemmas.Str
/-!
# C62, C63, C64, C76: `epsilon/scripts/benchmark.py`
-/
namespace Verif.Benchmark
open Verif.Py

/-! ## C64: disk statistics -/

theorem bytesInt_natStr (n : Nat) : bytesInt (natStr n) = .ok (n : Int) := by
  have hd := natStr_isDigit n
  have hne := natStr_ne_nil n
  have hv := intDigits_digits (natStr n) hd false 0 (Or.inr hne)
  have hval : (List.map (fun x => x - 48) (natStr n)).foldl (fun a d => a * 10 + d) 0 = n := digitsVal_natStr n
  rw [hval] at hv
  obtain ⟨c, r, hcr⟩ := List.exists_cons_of_ne_nil hne
  have hc := hd c (by rw [hcr]; simp)
  have h1 : c ≠ 45 := fun e => by subst e; simp [isDigit] at hc
  have h2 : c ≠ 43 := fun e => by subst e; simp [isDigit] at hc
  rw [hcr] at hv ⊢
  unfold bytesInt
  split
  · rename_i h; simp only [List.cons.injEq] at h; exact absurd h.1 h1
  · rename_i h; simp only [List.cons.injEq] at h; exact absurd h.1 h2
  · rw [hv]

/-- Signs: `int(b'-5')`, `int(b'+5')`; an underscore may not follow the sign. -/
theorem bytesInt_signed (n : Nat) : bytesInt (45 :: natStr n) = .ok (-(n : Int)) ∧ bytesInt (43 :: natStr n) = .ok (n : Int) ∧
    (∀ r, bytesInt (45 :: 95 :: r) = .error .valueError) ∧ (∀ r, bytesInt (43 :: 95 :: r) = .error .valueError) ∧
    bytesInt [45] = .error .valueError ∧ bytesInt [43] = .error .valueError := by
  have hv := intDigits_digits (natStr n) (natStr_isDigit n) false 0 (Or.inr (natStr_ne_nil n))
  have hval : (List.map (fun x => x - 48) (natStr n)).foldl (fun a d => a * 10 + d) 0 = n := digitsVal_natStr n
  rw [hval] at hv
  refine ⟨?_, ?_, fun r => ?_, fun r => ?_, rfl, rfl⟩
  · simp only [bytesInt, hv]
  · simp only [bytesInt, hv]
  · simp [bytesInt, intDigits, isDigit]
  · simp [bytesInt, intDigits, isDigit]

theorem bytesInts_natStr (ns : List Nat) : bytesInts (ns.map natStr) = .ok (ns.map (Nat.cast : Nat → Int)) := by
  induction ns with
  | nil => rfl
  | cons n ns ih => rw [List.map_cons, bytesInts, bytesInt_natStr]; simp only; rw [ih]; rfl

theorem bytesInts_length (xs : List Str) (ns : List Int) (h : bytesInts xs = .ok ns) : ns.length = xs.length := by
  induction xs generalizing ns with
  | nil => cases h; rfl
  | cons x xs ih =>
    rw [bytesInts] at h
    cases hx : bytesInt x with
    | error e => rw [hx] at h; cases h
    | ok n =>
      rw [hx] at h
      cases hxs : bytesInts xs with
      | error e => rw [hxs] at h; cases h
      | ok ms => rw [hxs] at h; cases h; simp [ih ms hxs]

/-- A record made of exactly one value per name. -/
theorem init_exact (names : List Structlike.Name) (hnd : names.Nodup) (vs : List Int) (h : vs.length = names.length) :
    ∃ attrs, Structlike.init ⟨names, []⟩ vs [] = .ok attrs ∧ Dict.keys attrs = names ∧
      ∀ (i : Nat) (n : Structlike.Name), names[i]? = some n → Dict.get? attrs n = vs[i]? := by
  have key : ∀ (i : Nat) (n : Structlike.Name), names[i]? = some n →
      Structlike.boundValue ⟨names, []⟩ vs [] i n = vs[i]? := by
    intro i n hi
    have hil : i < names.length := (List.getElem?_eq_some_iff.mp hi).1
    rw [Structlike.boundValue, List.getElem?_eq_getElem (by omega)]
  obtain ⟨attrs, h1, h2, h3⟩ := Structlike.init_ok ⟨names, []⟩ hnd (by simp) vs [] Dict.WF.nil
    ⟨by simp [h], by simp [Dict.keys], fun i n hi => by
      rw [key i n hi, List.getElem?_eq_getElem (by have := (List.getElem?_eq_some_iff.mp hi).1; simp at this; omega)]; simp,
      by simp [Dict.keys]⟩
  exact ⟨attrs, h1, h2, fun i n hi => by rw [h3 i n hi, key i n hi]⟩

/-- A record without defaults refuses any other number of values. -/
theorem init_wrong (names : List Structlike.Name) (hnd : names.Nodup) (vs : List Int) (h : vs.length ≠ names.length) :
    Structlike.init ⟨names, []⟩ vs [] = .error .typeError := by
  apply Structlike.init_error ⟨names, []⟩ hnd (by simp) vs [] Dict.WF.nil
  rintro ⟨h1, _, h3, _⟩
  simp only at h1 h3
  have hlt : vs.length < names.length := by omega
  refine h3 vs.length names[vs.length] (List.getElem?_eq_getElem hlt) ?_
  rw [Structlike.boundValue, List.getElem?_eq_none (by omega)]
  simp only [Dict.get?_nil, List.length_nil, Nat.add_zero]
  rw [if_neg (by omega)]

theorem diskNames_nodup : diskNames.Nodup := by decide
theorem partitionNames_nodup : partitionNames.Nodup := by decide

/-- **C64**: a line of two numbers, a device name and counters in decimal, laid out with any white space, parses to the
device and the counters: all four for a line that has just these, and otherwise the first eleven of at least that many. -/
theorem diskstat_columns (major minor : Nat) (device raw : Str) (hraw : utf8Encode device = some raw) (hne : raw ≠ [])
    (hsp : ∀ c ∈ raw, isByteSpace c = false) (counters : List Nat)
    (line : List (Str × Str)) (hok : LayoutOK isByteSpace line) (lead : Str) (hlead : ∀ c ∈ lead, isByteSpace c = true)
    (hline : line.map Prod.fst = natStr major :: natStr minor :: raw :: counters.map natStr) :
    (counters.length = 4 → ∃ attrs, parseDiskStatLine (lead ++ layout line) = .ok (device, attrs) ∧
      Dict.keys attrs = partitionNames ∧
      ∀ (i : Nat) (n : Structlike.Name), partitionNames[i]? = some n → Dict.get? attrs n = counters[i]?.map Int.ofNat) ∧
    (11 ≤ counters.length → ∃ attrs, parseDiskStatLine (lead ++ layout line) = .ok (device, attrs) ∧
      Dict.keys attrs = diskNames ∧
      ∀ (i : Nat) (n : Structlike.Name), diskNames[i]? = some n → Dict.get? attrs n = counters[i]?.map Int.ofNat) := by
  have hw : words isByteSpace (lead ++ layout line) = natStr major :: natStr minor :: raw :: counters.map natStr := by
    rw [words_pad _ _ _ hlead, words_layout _ _ hok, hline]
  have hcast : (Nat.cast : Nat → Int) = Int.ofNat := rfl
  constructor
  · intro h4
    obtain ⟨attrs, h1, h2, h3⟩ := init_exact partitionNames partitionNames_nodup (counters.map (Nat.cast : Nat → Int))
      (by rw [List.length_map, h4]; decide)
    refine ⟨attrs, ?_, h2, fun i n hi => by rw [h3 i n hi, List.getElem?_map, hcast]⟩
    have hd : List.drop 3 (List.take 14 (natStr major :: natStr minor :: raw :: counters.map natStr)) =
        counters.map natStr := by
      simp only [List.take_succ_cons, List.drop_succ_cons, List.drop_zero]
      exact List.take_of_length_le (by simp [h4])
    rw [parseDiskStatLine]
    simp only [hw, hd, List.getElem?_cons_succ, List.getElem?_cons_zero, utf8Decode_encode _ _ hraw, bytesInts_natStr,
      List.length_cons, List.length_map, h4, if_true, h1]
  · intro h11
    obtain ⟨attrs, h1, h2, h3⟩ := init_exact diskNames diskNames_nodup ((counters.take 11).map (Nat.cast : Nat → Int))
      (by rw [List.length_map, List.length_take, Nat.min_eq_left h11]; decide)
    refine ⟨attrs, ?_, h2, fun i n hi => ?_⟩
    · have hd : List.drop 3 (List.take 14 (natStr major :: natStr minor :: raw :: counters.map natStr)) =
          (counters.take 11).map natStr := by
        simp only [List.take_succ_cons, List.drop_succ_cons, List.drop_zero, List.map_take]
      rw [parseDiskStatLine]
      simp only [hw, hd, List.getElem?_cons_succ, List.getElem?_cons_zero, utf8Decode_encode _ _ hraw, bytesInts_natStr,
        List.length_cons, List.length_map]
      rw [if_neg (by omega), h1]
    · have hi' : i < 11 := (List.getElem?_eq_some_iff.mp hi).1
      rw [h3 i n hi, List.getElem?_map, hcast, List.getElem?_take_of_lt hi']

/-- Only lines of seven words or of at least fourteen are accepted. -/
theorem diskstat_shape (line : Str) (r : Str × Dict Structlike.Name Int) (h : parseDiskStatLine line = .ok r) :
    (words isByteSpace line).length = 7 ∧ Dict.keys r.2 = partitionNames ∨
    14 ≤ (words isByteSpace line).length ∧ Dict.keys r.2 = diskNames := by
  rw [parseDiskStatLine] at h
  simp only at h
  generalize words isByteSpace line = parts at h ⊢
  cases hp : parts[2]? with
  | none => rw [hp] at h; cases h
  | some device =>
    rw [hp] at h; simp only at h
    cases hu : utf8Decode device with
    | none => rw [hu] at h; cases h
    | some name =>
      rw [hu] at h; simp only at h
      cases hb : bytesInts ((parts.take 14).drop 3) with
      | error e => rw [hb] at h; cases h
      | ok ns =>
        rw [hb] at h; simp only at h
        have hlen := bytesInts_length _ _ hb
        simp only [List.length_drop, List.length_take] at hlen
        by_cases h7 : parts.length = 7
        · rw [if_pos h7] at h
          obtain ⟨attrs, h1, h2, _⟩ := init_exact partitionNames partitionNames_nodup ns
            (by rw [hlen, h7]; decide)
          rw [h1] at h; cases h
          exact Or.inl ⟨h7, h2⟩
        · rw [if_neg h7] at h
          by_cases hn : ns.length = diskNames.length
          · obtain ⟨attrs, h1, h2, _⟩ := init_exact diskNames diskNames_nodup ns hn
            rw [h1] at h; cases h
            refine Or.inr ⟨?_, h2⟩
            have : diskNames.length = 11 := by decide
            omega
          · rw [init_wrong _ diskNames_nodup _ hn] at h; cases h

/-- The last line for a device counts. -/
theorem captureStats_get (ls : List Str) (d d' : Dict Str (Dict Structlike.Name Int)) (h : captureStats ls d = .ok d') (k : Str) :
    (∃ v, Dict.get? d' k = some v ∧ ∃ l₁ l l₂, ls = l₁ ++ l :: l₂ ∧ parseDiskStatLine l = .ok (k, v) ∧
      ∀ x ∈ l₂, ∀ w, parseDiskStatLine x ≠ .ok (k, w)) ∨
    (Dict.get? d' k = Dict.get? d k ∧ ∀ x ∈ ls, ∀ w, parseDiskStatLine x ≠ .ok (k, w)) := by
  induction ls generalizing d with
  | nil => cases h; exact Or.inr ⟨rfl, by simp⟩
  | cons l ls ih =>
    rw [captureStats] at h
    cases hl : parseDiskStatLine l with
    | error e => rw [hl] at h; cases h
    | ok r =>
      obtain ⟨k', v⟩ := r
      rw [hl] at h; simp only at h
      rcases ih _ h with ⟨w, h1, l₁, x, l₂, rfl, h2, h3⟩ | ⟨h1, h2⟩
      · exact Or.inl ⟨w, h1, l :: l₁, x, l₂, rfl, h2, h3⟩
      · by_cases hk : k' = k
        · subst hk
          exact Or.inl ⟨v, by rw [h1, Dict.get?_set_same], [], l, ls, rfl, hl, h2⟩
        · refine Or.inr ⟨by rw [h1, Dict.get?_set_other _ _ _ _ hk], fun x hx w => ?_⟩
          rcases List.mem_cons.mp hx with rfl | hx
          · rw [hl]; intro e; cases e; exact hk rfl
          · exact h2 x hx w

/-- `   8    1 sda 1 2 3 4\n` -/
example : parseDiskStatLine [32, 32, 56, 32, 32, 49, 32, 115, 100, 97, 32, 49, 32, 50, 32, 51, 32, 52, 10] =
    .ok ([115, 100, 97], partitionNames.zip [1, 2, 3, 4]) := rfl

/-! ## C62: the working device -/

/-- `mount` is the directory `cwd` or one above it. -/
def Ancestor (mount cwd : Str) : Prop := mount = [47] ∨ cwd = mount ∨ ∃ rest, cwd = mount ++ [47] ++ rest

theorem possLe_trans {a b c : Nat × Str} (h1 : PossLe a b) (h2 : PossLe b c) : PossLe a c := by
  rcases h1 with h1 | ⟨h1, h1'⟩ <;> rcases h2 with h2 | ⟨h2, h2'⟩
  · exact Or.inl (by omega)
  · exact Or.inl (by omega)
  · exact Or.inl (by omega)
  · refine Or.inr ⟨by omega, ?_⟩
    intro hgt
    have hlt : strCmp c.2 a.2 = .lt := by rw [← strCmp_swap, hgt]; rfl
    cases h12 : strCmp a.2 b.2 with
    | lt =>
      have hcb := strCmp_lt_trans hlt h12
      have : strCmp b.2 c.2 = .gt := by rw [← strCmp_swap, hcb]; rfl
      exact h2' this
    | eq =>
      rw [strCmp_eq_iff] at h12
      rw [h12] at hgt; exact h2' hgt
    | gt => exact h1' h12

theorem possLe_total (a b : Nat × Str) : PossLe a b ∨ PossLe b a := by
  rcases Nat.lt_trichotomy a.1 b.1 with h | h | h
  · exact Or.inl (Or.inl h)
  · by_cases hg : strCmp a.2 b.2 = .gt
    · refine Or.inr (Or.inr ⟨h.symm, ?_⟩)
      rw [← strCmp_swap, hg]; simp [Ordering.swap]
    · exact Or.inl (Or.inr ⟨h, hg⟩)
  · exact Or.inr (Or.inl h)

instance : IsTrans (Nat × Str) PossLe := ⟨fun _ _ _ => possLe_trans⟩
instance : Std.Total PossLe := ⟨possLe_total⟩

/-- The last of the sorted possibilities. -/
theorem sort_last (ps : List (Nat × Str)) (p : Nat × Str) (h : (ps.insertionSort PossLe).getLast? = some p) :
    p ∈ ps ∧ ∀ q ∈ ps, PossLe q p := by
  have hm : p ∈ ps.insertionSort PossLe := List.mem_of_getLast? h
  refine ⟨(List.mem_insertionSort PossLe).mp hm, fun q hq => ?_⟩
  have hs := List.pairwise_insertionSort PossLe ps
  have hq' := (List.mem_insertionSort PossLe).mpr hq
  rw [List.getLast?_eq_some_iff] at h
  obtain ⟨ys, hy⟩ := h
  rw [hy] at hs hq'
  rcases List.mem_append.mp hq' with hq' | hq'
  · exact (List.pairwise_append.mp hs).2.2 q hq' p (by simp)
  · rw [List.mem_singleton] at hq'; subst hq'
    exact Or.inr ⟨rfl, by rw [(strCmp_eq_iff _ _).mpr rfl]; simp⟩

/-- A line of the mount table: the device, the mount point, and whatever follows. -/
def TableLine (sp : Nat → Bool) (row : Str × Str) (line : Str) : Prop := ∃ rest, words sp line = row.1 :: row.2 :: rest

/-- The lines present the table. -/
def Table (sp : Nat → Bool) : List (Str × Str) → List Str → Prop
  | [], [] => True
  | r :: rs, l :: ls => TableLine sp r l ∧ Table sp rs ls
  | _, _ => False

theorem possibilities_table (sp : Nat → Bool) (cwd : Str) (rows : List (Str × Str)) (lines : List Str)
    (h : Table sp rows lines) :
    ∃ ps, possibilities sp cwd lines = .ok ps ∧
      ∀ n dev, (n, dev) ∈ ps ↔ ∃ mount, (dev, mount) ∈ rows ∧ n = mount.length ∧ ∃ rest, cwd = mount ++ rest := by
  induction rows generalizing lines with
  | nil =>
    cases lines with
    | nil => exact ⟨[], rfl, by simp⟩
    | cons l ls => exact absurd h id
  | cons r rows ih =>
    cases lines with
    | nil => exact absurd h id
    | cons l ls =>
      obtain ⟨⟨rest, hl⟩, ht⟩ := h
      obtain ⟨ps, hps, hm⟩ := ih ls ht
      obtain ⟨dev₀, mount₀⟩ := r
      refine ⟨_, by rw [possibilities, hl]; simp only; rw [hps], fun n dev => ?_⟩
      have hpre : Path.startsWith cwd mount₀ = true ↔ ∃ rest, cwd = mount₀ ++ rest := by
        rw [Path.startsWith, List.isPrefixOf_iff_prefix]
        exact ⟨fun ⟨t, h⟩ => ⟨t, h.symm⟩, fun ⟨t, h⟩ => ⟨t, h.symm⟩⟩
      split
      · rename_i hs
        rw [hpre] at hs
        rw [List.mem_cons, hm]
        constructor
        · rintro (e | ⟨mount, h1, h2⟩)
          · cases e; exact ⟨mount₀, by simp, rfl, hs⟩
          · exact ⟨mount, List.mem_cons_of_mem _ h1, h2⟩
        · rintro ⟨mount, h1, h2, h3⟩
          rcases List.mem_cons.mp h1 with e | h1
          · cases e; exact Or.inl (by rw [h2])
          · exact Or.inr ⟨mount, h1, h2, h3⟩
      · rename_i hs
        rw [hpre] at hs
        rw [hm]
        constructor
        · rintro ⟨mount, h1, h2⟩; exact ⟨mount, List.mem_cons_of_mem _ h1, h2⟩
        · rintro ⟨mount, h1, h2, h3⟩
          rcases List.mem_cons.mp h1 with e | h1
          · cases e; exact absurd h3 hs
          · exact ⟨mount, h1, h2, h3⟩

/-- `'<unknown>'` -/
def unknown : Str := [60, 117, 110, 107, 110, 111, 119, 110, 62]

/-- What the function computes, with "is an ancestor" replaced by "is a prefix of the text". -/
theorem device_text (sp : Nat → Bool) (cwd : Str) (rows : List (Str × Str)) (lines : List Str) (h : Table sp rows lines) :
    (discoverCurrentWorkingDevice sp cwd lines = .ok unknown ∧ ∀ r ∈ rows, ¬ ∃ rest, cwd = r.2 ++ rest) ∨
    ∃ dev mount, discoverCurrentWorkingDevice sp cwd lines = .ok dev ∧ (dev, mount) ∈ rows ∧ (∃ rest, cwd = mount ++ rest) ∧
      ∀ r ∈ rows, (∃ rest, cwd = r.2 ++ rest) → r.2.length ≤ mount.length := by
  obtain ⟨ps, hps, hm⟩ := possibilities_table sp cwd rows lines h
  rw [discoverCurrentWorkingDevice, hps]
  simp only
  cases hl : (ps.insertionSort PossLe).getLast? with
  | none =>
    left
    refine ⟨rfl, fun r hr hc => ?_⟩
    rw [List.getLast?_eq_none_iff] at hl
    have : (r.2.length, r.1) ∈ ps := (hm _ _).mpr ⟨r.2, hr, rfl, hc⟩
    rw [← List.mem_insertionSort PossLe, hl] at this
    simp at this
  | some p =>
    right
    obtain ⟨h1, h2⟩ := sort_last ps p hl
    obtain ⟨n, dev⟩ := p
    obtain ⟨mount, h3, h4, h5⟩ := (hm n dev).mp h1
    refine ⟨dev, mount, rfl, h3, h5, fun r hr hc => ?_⟩
    have := h2 (r.2.length, r.1) ((hm _ _).mpr ⟨r.2, hr, rfl, hc⟩)
    rcases this with h | ⟨h, _⟩ <;> simp only at h <;> omega

/-- **C62**, for tables in which every mount point that is a prefix of the directory's text is an ancestor of it: the result
is a device mounted at the longest mount point above the directory, or `'<unknown>'`.

Missing: mount points that are only textual prefixes (`device_prefix_fails`), and which of several devices mounted at the
same point is in use (`device_overmount_fails`). -/
theorem device_partial (sp : Nat → Bool) (cwd : Str) (habs : ∃ r, cwd = 47 :: r) (rows : List (Str × Str)) (lines : List Str)
    (h : Table sp rows lines) (hanc : ∀ r ∈ rows, (∃ rest, cwd = r.2 ++ rest) → Ancestor r.2 cwd) :
    (discoverCurrentWorkingDevice sp cwd lines = .ok unknown ∧ ∀ r ∈ rows, ¬ Ancestor r.2 cwd) ∨
    ∃ dev mount, discoverCurrentWorkingDevice sp cwd lines = .ok dev ∧ (dev, mount) ∈ rows ∧ Ancestor mount cwd ∧
      ∀ r ∈ rows, Ancestor r.2 cwd → r.2.length ≤ mount.length := by
  have hpre : ∀ m : Str, Ancestor m cwd → ∃ rest, cwd = m ++ rest := by
    rintro m (rfl | rfl | ⟨rest, rfl⟩)
    · obtain ⟨r, rfl⟩ := habs; exact ⟨r, rfl⟩
    · exact ⟨[], by simp⟩
    · exact ⟨[47] ++ rest, by simp⟩
  rcases device_text sp cwd rows lines h with ⟨h1, h2⟩ | ⟨dev, mount, h1, h2, h3, h4⟩
  · exact Or.inl ⟨h1, fun r hr ha => h2 r hr (hpre _ ha)⟩
  · exact Or.inr ⟨dev, mount, h1, h2, hanc _ h2 h3, fun r hr ha => h4 r hr (hpre _ ha)⟩

/-- In `/hb`, with `r` mounted at `/` and `x` at `/h`, the answer is `x`. -/
theorem device_prefix_fails :
    discoverCurrentWorkingDevice (· == 32) [47, 104, 98] [[114, 32, 47], [120, 32, 47, 104]] = .ok [120] ∧
    ¬ Ancestor [47, 104] [47, 104, 98] ∧ Ancestor [47] [47, 104, 98] := by
  refine ⟨rfl, ?_, Or.inl rfl⟩
  rintro (h | h | ⟨rest, h⟩)
  · revert h; decide
  · revert h; decide
  · simp at h

/-- With `b` and then `a` mounted at `/h`, what is seen there is `a`; the answer is `b`. -/
theorem device_overmount_fails :
    discoverCurrentWorkingDevice (· == 32) [47, 104] [[98, 32, 47, 104], [97, 32, 47, 104]] = .ok [98] := rfl

/-- In `/h/b` the longest mount point above is `/h`; the hypotheses of `device_partial` are met. -/
example : discoverCurrentWorkingDevice (· == 32) [47, 104, 47, 98] [[120, 32, 47, 104, 32, 101], [114, 32, 47]] =
    .ok [120] ∧ Table (· == 32) [([120], [47, 104]), ([114], [47])] [[120, 32, 47, 104, 32, 101], [114, 32, 47]] :=
  ⟨rfl, ⟨[[101]], by decide⟩, ⟨[], by decide⟩, trivial⟩

/-! ## C63: `BasicProcess` -/

/-- Events before the end. -/
def Event.Before : Event → Prop
  | .data _ _ => True
  | .lost _ => True
  | .wait _ => True
  | .turn => True
  | _ => False

/-- Events in which the child is silent. -/
def Event.Silent : Event → Prop
  | .wait _ => True
  | .turn => True
  | _ => False

/-- How long a run of events lasts. -/
def total : List Event → Nat
  | [] => 0
  | .wait ms :: es => ms + total es
  | _ :: es => total es

/-- The reactor gets a turn when the child has been silent for 900 seconds. -/
def QuietTurn (es : List Event) : Prop :=
  ∃ a ws b, es = a ++ ws ++ .turn :: b ∧ (∀ e ∈ ws, e.Silent) ∧ 900000 ≤ total ws

/-- What the child has said. -/
def outputs (es : List Event) : Output :=
  es.filterMap fun e => match e with
    | .data fd b => some (fd, some b)
    | .lost fd => some (fd, none)
    | _ => none

/-- The specified outcome. -/
def Outcomes (es : List Event) (r : Reason) (o : Outcome) : Prop :=
  match r with
  | .done status => o = .success status (outputs es)
  | .terminated code signal status =>
    (QuietTurn es → o = .timeoutError) ∧ (¬ QuietTurn es → o = .processDied code signal status (outputs es))
  | .other n => (QuietTurn es → o = .timeoutError) ∧ (¬ QuietTurn es → o = .failure n)

theorem total_append (a b : List Event) : total (a ++ b) = total a + total b := by
  induction a with
  | nil => simp [total]
  | cons e a ih => cases e <;> simp [total, ih] <;> omega

/-- How long the child has been silent at the end. -/
def silence (es : List Event) : Nat :=
  es.foldl (fun q e => match e with
    | .wait ms => q + ms
    | .turn => q
    | _ => 0) 0

theorem silence_snoc (es : List Event) (e : Event) :
    silence (es ++ [e]) = match e with
      | .wait ms => silence es + ms
      | .turn => silence es
      | _ => 0 := by
  rw [silence, List.foldl_append]; rfl

theorem silence_le (a ws : List Event) (h : ∀ e ∈ ws, e.Silent) : total ws ≤ silence (a ++ ws) := by
  induction ws using List.reverseRecOn with
  | nil => simp [total]
  | append_singleton ws e ih =>
    have ih := ih fun x hx => h x (by simp [hx])
    have he := h e (by simp)
    rw [← List.append_assoc, silence_snoc, total_append]
    cases e <;> simp only [Event.Silent] at he <;> simp only [total] <;> omega

theorem silence_run (es : List Event) :
    ∃ a ws, es = a ++ ws ∧ (∀ e ∈ ws, e.Silent) ∧ total ws = silence es := by
  induction es using List.reverseRecOn with
  | nil => exact ⟨[], [], rfl, by simp, rfl⟩
  | append_singleton es e ih =>
    obtain ⟨a, ws, h1, h2, h3⟩ := ih
    have key : e.Silent → total (ws ++ [e]) = silence (es ++ [e]) →
        ∃ a ws', es ++ [e] = a ++ ws' ∧ (∀ e ∈ ws', e.Silent) ∧ total ws' = silence (es ++ [e]) := by
      intro hs ht
      refine ⟨a, ws ++ [e], by rw [h1, List.append_assoc], fun x hx => ?_, ht⟩
      rcases List.mem_append.mp hx with hx | hx
      · exact h2 x hx
      · rw [List.mem_singleton] at hx; subst hx; exact hs
    cases e with
    | wait ms => exact key trivial (by rw [silence_snoc, total_append, h3]; simp [total])
    | turn => exact key trivial (by rw [silence_snoc, total_append, h3]; simp [total])
    | made => exact ⟨es ++ [.made], [], by simp, by simp, by rw [silence_snoc]; rfl⟩
    | data fd b => exact ⟨es ++ [.data fd b], [], by simp, by simp, by rw [silence_snoc]; rfl⟩
    | lost fd => exact ⟨es ++ [.lost fd], [], by simp, by simp, by rw [silence_snoc]; rfl⟩
    | ended r => exact ⟨es ++ [.ended r], [], by simp, by simp, by rw [silence_snoc]; rfl⟩

theorem quietTurn_snoc (es : List Event) (e : Event) :
    QuietTurn (es ++ [e]) ↔ QuietTurn es ∨ (e = .turn ∧ 900000 ≤ silence es) := by
  constructor
  · rintro ⟨a, ws, b, h, hs, ht⟩
    rcases List.eq_nil_or_concat b with rfl | ⟨b', x, rfl⟩
    · obtain ⟨h1, h2⟩ := List.append_inj' h rfl
      simp only [List.cons.injEq, and_true] at h2
      refine Or.inr ⟨h2, ?_⟩
      have := silence_le a ws hs
      rw [h1]; omega
    · rw [List.concat_eq_append, ← List.cons_append, ← List.append_assoc] at h
      obtain ⟨h1, _⟩ := List.append_inj' h rfl
      exact Or.inl ⟨a, ws, b', h1, hs, ht⟩
  · rintro (⟨a, ws, b, h, hs, ht⟩ | ⟨rfl, h⟩)
    · exact ⟨a, ws, b ++ [e], by rw [h]; simp, hs, ht⟩
    · obtain ⟨a, ws, h1, h2, h3⟩ := silence_run es
      exact ⟨a, ws, [], by rw [← h1], h2, by omega⟩

theorem outputs_snoc (es : List Event) (e : Event) :
    outputs (es ++ [e]) = outputs es ++ (match e with
      | .data fd b => [(fd, some b)]
      | .lost fd => [(fd, none)]
      | _ => []) := by
  rw [outputs, List.filterMap_append]
  cases e <;> rfl

/-- The state before the end agrees with the history. -/
structure PInv (es : List Event) (p : Proc) : Prop where
  open_ : p.whenFinished = true
  out : p.output = some (outputs es)
  none_ : p.fired = []
  timed : p.timedOut = true ↔ QuietTurn es
  kill : p.kills = if p.timedOut then 1 else 0
  idle : p.timedOut = true → p.timer.call = none ∧ p.timer.calls = []
  armed : p.timedOut = false → ∃ id, p.timer.call = some id ∧ p.timer.timeOut = some 900000 ∧
    p.timer.calls = [(id, p.timer.now - silence es + 900000)]

theorem pinv_new (now : Int) : PInv [] (Proc.run [.made] (Proc.new now)) := by
  have hq : ¬ QuietTurn [] := by rintro ⟨a, ws, b, h, _⟩; simp at h
  have hrun : Proc.run [.made] (Proc.new now) =
      ⟨⟨now, [(0, now + 900000)], 1, some 900000, some 0, []⟩, false, true, some [], [], 0⟩ := by
    simp [Proc.run, Proc.new, Proc.step, setTimer, Timeout.setTimeout, Timeout.St.new, Timeout.callLater, quietMs]
  rw [hrun]
  exact ⟨rfl, rfl, rfl, ⟨fun h => by simp at h, fun h => absurd h hq⟩, rfl, fun h => by simp at h,
    fun _ => ⟨0, rfl, rfl, by simp [silence]⟩⟩

theorem pinv_step (es : List Event) (p : Proc) (h : PInv es p) (e : Event) (he : e.Before) : PInv (es ++ [e]) (p.step e) := by
  obtain ⟨h1, h2, h3, h4, h5, h6, h7⟩ := h
  -- the two events that reset the timer
  have act : ∀ x : Nat × Option Str, e ≠ .turn → outputs (es ++ [e]) = outputs es ++ [x] → silence (es ++ [e]) = 0 →
      PInv (es ++ [e]) (Proc.append { p with timer := resetTimer p.timer } x) := by
    intro x hne ho hs
    have hap : Proc.append { p with timer := resetTimer p.timer } x =
        { p with timer := resetTimer p.timer, output := some (outputs es ++ [x]) } := by
      simp [Proc.append, h2]
    rw [hap]
    refine ⟨h1, by rw [ho], h3, ?_, h5, fun ht => ?_, fun ht => ?_⟩
    · rw [quietTurn_snoc]
      exact h4.trans ⟨Or.inl, fun h => h.elim id fun h => absurd h.1 hne⟩
    · have := h6 ht
      simp [resetTimer, Timeout.resetTimeout, this.1, this.2]
    · obtain ⟨id, hc, hto, hcs⟩ := h7 ht
      refine ⟨id, ?_, ?_, ?_⟩ <;>
        simp [resetTimer, Timeout.resetTimeout, Timeout.resetCall, hc, hto, hcs, hs]
  cases e with
  | made => exact absurd he id
  | ended r => exact absurd he id
  | data fd b => exact act (fd, some b) (by simp) (outputs_snoc es _) (silence_snoc es _)
  | lost fd => exact act (fd, none) (by simp) (outputs_snoc es _) (silence_snoc es _)
  | wait ms =>
    refine ⟨h1, by rw [outputs_snoc, List.append_nil]; exact h2, h3, ?_, h5, h6, fun ht => ?_⟩
    · rw [quietTurn_snoc]
      exact h4.trans ⟨Or.inl, fun h => h.elim id fun h => by cases h.1⟩
    · obtain ⟨id, hc, hto, hcs⟩ := h7 ht
      refine ⟨id, hc, hto, ?_⟩
      rw [silence_snoc]
      simp only [Proc.step]
      rw [hcs]
      simp only [Nat.cast_add, List.cons.injEq, Prod.mk.injEq, and_true, true_and]
      omega
  | turn =>
    rw [Proc.step, Proc.turn]
    rcases Bool.eq_false_or_eq_true p.timedOut with ht | ht
    · obtain ⟨hc, hcs⟩ := h6 ht
      have : Timeout.turn (fun _ => []) p.timer = p.timer := by simp [Timeout.turn, hcs, Timeout.runDue]
      simp only [this, hc, Option.isSome_none, Bool.false_and, Bool.false_eq_true, if_false]
      refine ⟨h1, by rw [outputs_snoc, List.append_nil]; exact h2, h3, ?_, h5, fun _ => ⟨hc, hcs⟩, fun hf => ?_⟩
      · rw [quietTurn_snoc]
        exact ⟨fun h => Or.inl (h4.mp h), fun _ => ht⟩
      · simp only [ht] at hf; cases hf
    · obtain ⟨id, hc, hto, hcs⟩ := h7 ht
      have hnq : ¬ QuietTurn es := fun h => by rw [← h4, ht] at h; cases h
      by_cases hd : 900000 ≤ silence es
      · have hdue : p.timer.now - (silence es : Int) + 900000 ≤ p.timer.now := by omega
        have htn : Timeout.turn (fun _ => []) p.timer =
            { p.timer with calls := [], call := none, log := p.timer.log ++ [(p.timer.now, .timeout)] } := by
          simp [Timeout.turn, hcs, hdue, Timeout.runDue, Timeout.timedOut]
        simp only [htn, hc, Option.isSome_some, Option.isNone_none, Bool.and_self, if_true]
        refine ⟨h1, by rw [outputs_snoc, List.append_nil]; exact h2, h3, ?_, by simp [h5, ht], fun _ => ⟨rfl, rfl⟩,
          fun hf => by simp at hf⟩
        rw [quietTurn_snoc]
        exact ⟨fun _ => Or.inr ⟨rfl, hd⟩, fun _ => rfl⟩
      · have hdue : ¬ p.timer.now - (silence es : Int) + 900000 ≤ p.timer.now := by omega
        have htn : Timeout.turn (fun _ => []) p.timer = p.timer := by
          simp [Timeout.turn, hcs, hdue, Timeout.runDue]
        simp only [htn, hc, Option.isNone_some, Bool.and_false, Bool.false_eq_true, if_false]
        refine ⟨h1, by rw [outputs_snoc, List.append_nil]; exact h2, h3, ?_, h5, fun hf => ?_, fun _ => ⟨id, hc, hto, ?_⟩⟩
        · rw [quietTurn_snoc]
          exact ⟨fun h => Or.inl (h4.mp h), fun h => h.elim h4.mpr fun h => absurd h.2 hd⟩
        · simp only [ht] at hf; cases hf
        · rw [silence_snoc]; exact hcs

theorem pinv_run (now : Int) (es : List Event) (h : ∀ e ∈ es, e.Before) :
    PInv es (Proc.run (.made :: es) (Proc.new now)) := by
  induction es using List.reverseRecOn with
  | nil => exact pinv_new now
  | append_singleton es e ih =>
    have := pinv_step es _ (ih fun x hx => h x (by simp [hx])) e (h e (by simp))
    rw [Proc.run, ← List.cons_append, List.foldl_append]
    exact this

/-- After the end nothing fires or kills any more. -/
structure After (o : Outcome) (k : Nat) (p : Proc) : Prop where
  closed : p.whenFinished = false
  fired : p.fired = [o]
  kills : p.kills = k
  idle : p.timer.call = none ∧ p.timer.calls = []

theorem after_step (o : Outcome) (k : Nat) (p : Proc) (h : After o k p) (e : Event) (he : e ≠ .made) : After o k (p.step e) := by
  obtain ⟨h1, h2, h3, h4, h5⟩ := h
  have hr : resetTimer p.timer = p.timer := by simp [resetTimer, Timeout.resetTimeout, h4]
  cases e with
  | made => exact absurd rfl he
  | data fd b => rw [Proc.step, hr, Proc.append]; split <;> exact ⟨h1, h2, h3, h4, h5⟩
  | lost fd => rw [Proc.step, hr, Proc.append]; split <;> exact ⟨h1, h2, h3, h4, h5⟩
  | ended r =>
    simp only [Proc.step, Proc.processEnded, h1, Bool.false_eq_true, if_false]
    exact ⟨rfl, h2, h3, h4, h5⟩
  | wait ms => exact ⟨h1, h2, h3, h4, h5⟩
  | turn =>
    have : Timeout.turn (fun _ => []) p.timer = p.timer := by simp [Timeout.turn, h5, Timeout.runDue]
    simp only [Proc.step, Proc.turn, this, h4, Option.isSome_none, Bool.false_and, Bool.false_eq_true, if_false]
    exact ⟨h1, h2, h3, h4, h5⟩

/-- **C63**: whatever happens before and after it, the end of the process fires the Deferred exactly once: with success and
the output in order if the exit was clean; otherwise with `TimeoutError` if the child had been silent for 900 seconds at a
turn of the reactor — which is when it was killed, once — and with what the reason says if not. -/
theorem process_ends_once (now : Int) (before after : List Event) (hb : ∀ e ∈ before, e.Before)
    (ha : ∀ e ∈ after, e ≠ .made) (r : Reason) :
    let p := Proc.run (.made :: before ++ .ended r :: after) (Proc.new now)
    (∃ o, p.fired = [o] ∧ Outcomes before r o) ∧
    (Proc.run (.made :: before) (Proc.new now)).fired = [] ∧
    (QuietTurn before → p.kills = 1) ∧ (¬ QuietTurn before → p.kills = 0) := by
  intro p
  obtain ⟨h1, h2, h3, h4, h5, h6, h7⟩ := pinv_run now before hb
  have hp : p = Proc.run after ((Proc.run (.made :: before) (Proc.new now)).step (.ended r)) := by
    simp [p, Proc.run]
  generalize Proc.run (.made :: before) (Proc.new now) = q at h1 h2 h3 h4 h5 h6 h7 hp ⊢
  have hafter : ∀ o k (s : Proc), After o k s → After o k (Proc.run after s) := by
    intro o k s hs
    clear hp p
    induction after generalizing s with
    | nil => exact hs
    | cons e es ih =>
      exact ih (fun x hx => ha x (List.mem_cons_of_mem _ hx)) _ (after_step o k s hs e (ha e (by simp)))
  have hend : ∃ o, After o q.kills (q.step (.ended r)) ∧ Outcomes before r o := by
    have htimer : (setTimer q.timer none).call = none ∧ (setTimer q.timer none).calls = [] := by
      cases ht : q.timedOut with
      | true =>
        obtain ⟨hc, hcs⟩ := h6 ht
        simp [setTimer, Timeout.setTimeout, hc, hcs]
      | false =>
        obtain ⟨id, hc, hto, hcs⟩ := h7 ht
        simp [setTimer, Timeout.setTimeout, hc, hcs, Timeout.cancelCall]
    simp only [Proc.step, Proc.processEnded, h1, if_true, h2, Option.getD_some, h3, List.nil_append]
    refine ⟨_, ⟨rfl, rfl, rfl, htimer⟩, ?_⟩
    cases r with
    | done s => rfl
    | terminated c s st =>
      refine ⟨fun hq => ?_, fun hq => ?_⟩
      · simp [h4.mpr hq]
      · have : q.timedOut = false := by rw [← h4] at hq; simpa using hq
        simp [this]
    | other n =>
      refine ⟨fun hq => ?_, fun hq => ?_⟩
      · simp [h4.mpr hq]
      · have : q.timedOut = false := by rw [← h4] at hq; simpa using hq
        simp [this]
  obtain ⟨o, hA, hO⟩ := hend
  obtain ⟨_, hf, hk, _⟩ := hafter o _ _ hA
  rw [hp]
  refine ⟨⟨o, hf, hO⟩, h3, fun hq => ?_, fun hq => ?_⟩
  · rw [hk, h5, if_pos (h4.mpr hq)]
  · rw [hk, h5, if_neg (fun h => hq (h4.mp h))]

/-- Silent for 900 seconds after some output: killed and reported as a time-out. -/
example : Proc.fired (Proc.run [.made, .wait 5, .data 1 [97], .wait 900000, .turn, .lost 1, .ended (.terminated none (some 9) 9)]
    (Proc.new 0)) = [.timeoutError] := by decide

/-- Output just in time. -/
example : Proc.fired (Proc.run [.made, .wait 899999, .turn, .data 1 [97], .wait 899999, .turn, .lost 2, .ended (.done 0)]
    (Proc.new 0)) = [.success 0 [(1, some [97]), (2, none)]] := by decide

/-! ## C76: the back channel of `BenchmarkProcess` -/

/-- What each byte of the protocol calls for. -/
def replyTo (c : Nat) : Reply := if c = 0 then .start else if c = 1 then .stop else .quit

/-- **C76** on Python 2: however the bytes are cut into chunks, each START begins and each STOP ends the timing and is
acknowledged, in order, and every other byte ends the child.

Missing: Python 3 (`backchannel_fails`). -/
theorem backchannel_partial (chunks : List Str) :
    chunks.flatMap (backchannel false) = chunks.flatten.map replyTo := by
  induction chunks with
  | nil => rfl
  | cons c cs ih =>
    rw [List.flatMap_cons, ih, List.flatten_cons, List.map_append]
    congr 1
    simp only [backchannel, items, List.map_map]
    apply List.map_congr_left
    intro x _
    simp [replyTo]

/-- On Python 3 iterating over `bytes` yields numbers, none of which equals a `str`: START and STOP end the child. -/
theorem backchannel_fails (data : Str) : backchannel true data = data.map fun _ => .quit := by
  simp only [backchannel, items, List.map_map]
  apply List.map_congr_left
  intro x _
  simp

example : backchannel false [0, 1, 7] = [.start, .stop, .quit] ∧ backchannel true [0, 1] = [.quit, .quit] := by decide

end Verif.Benchmark
