import Verif.Lemmas.JuiceWire
import Verif.Spec.Juice
import Verif.Lemmas.Pair
import Mathlib.Data.List.Nodup
/-!
# Lemmas about serialising and parsing juice boxes
-/
namespace Verif.Juice
open Verif.Py

theorem findDelim_eq (s : Bytes) : findDelim s = splitPair 13 10 s := by
  induction s with
  | nil => rfl
  | cons c s ih =>
    unfold findDelim splitPair
    split
    · rename_i h; cases h
    · rename_i h; cases h; simp
    · rename_i hne h
      cases h
      rw [ih, if_neg]
      rintro ⟨rfl, h⟩
      cases s with
      | nil => cases h
      | cons d s => cases h; exact hne _ rfl rfl

theorem splitColon_eq (s : Bytes) : splitColon s = splitPair 58 32 s := by
  induction s with
  | nil => rfl
  | cons c s ih =>
    unfold splitColon splitPair
    split
    · rename_i h; cases h
    · rename_i h; cases h; simp
    · rename_i hne h
      cases h
      rw [ih, if_neg]
      rintro ⟨rfl, h⟩
      cases s with
      | nil => cases h
      | cons d s => cases h; exact hne _ rfl rfl

theorem escape_cons (c : Nat) (s : Bytes) (h : ¬ (c = 13 ∧ s.head? = some 10)) :
    escape (c :: s) = c :: escape s := by
  conv => lhs; unfold escape
  split
  · rename_i heq; cases heq
  · rename_i heq; cases heq; exact absurd ⟨rfl, rfl⟩ h
  · rename_i heq; cases heq; rfl

theorem escape_noPair {s : Bytes} (h : NoPair 13 10 s) : escape s = s := by
  induction s with
  | nil => rfl
  | cons c s ih =>
    rw [noPair_cons] at h
    rw [escape_cons c s h.1, ih h.2]

theorem escape_append {s : Bytes} (r : Bytes) (h : NoPair 13 10 s) :
    escape (s ++ 13 :: 10 :: r) = s ++ 13 :: 10 :: 32 :: escape r := by
  induction s with
  | nil => rfl
  | cons c s ih =>
    rw [noPair_cons] at h
    rw [List.cons_append, escape_cons, ih h.2, List.cons_append]
    rintro ⟨rfl, h2⟩
    cases s with
    | nil => simp at h2
    | cons d s => exact h.1 ⟨rfl, h2⟩

theorem utf8Char_head {c b : Nat} (hb : b < 128) (h : (utf8Char c).head? = some b) : c = b := by
  by_cases hc : c < 128
  · unfold utf8Char at h; rw [if_pos hc] at h; simpa using h
  · have := utf8Char_high c hc b (List.mem_of_mem_head? (by rw [h]; rfl))
    omega

theorem utf8Char_last {c b : Nat} (hb : b < 128) (h : (utf8Char c).getLast? = some b) : c = b := by
  by_cases hc : c < 128
  · unfold utf8Char at h; rw [if_pos hc] at h; simpa using h
  · have := utf8Char_high c hc b (List.mem_of_mem_getLast? (by rw [h]; rfl))
    omega

theorem utf8Char_noPair (c : Nat) : NoPair 13 10 (utf8Char c) := by
  rintro ⟨x, y, h⟩
  have h13 : 13 ∈ utf8Char c := by rw [← h]; simp
  have h10 : 10 ∈ utf8Char c := by rw [← h]; simp
  by_cases hc : c < 128
  · unfold utf8Char at h13 h10; rw [if_pos hc] at h13 h10
    simp at h13 h10; omega
  · have := utf8Char_high c hc 13 h13; omega

theorem utf8Encode_cons {c : Nat} {v vb : List Nat} (h : utf8Encode (c :: v) = some vb) :
    IsScalar c ∧ ∃ w, utf8Encode v = some w ∧ vb = utf8Char c ++ w := by
  unfold utf8Encode at h
  split at h
  · rename_i hc
    cases hv : utf8Encode v with
    | none => rw [hv] at h; cases h
    | some w => rw [hv] at h; cases h; exact ⟨hc, w, rfl, rfl⟩
  · cases h

theorem encode_noPair {v vb : List Nat} (h : utf8Encode v = some vb) (hn : NoPair 13 10 v) : NoPair 13 10 vb := by
  induction v generalizing vb with
  | nil => cases h; exact noPair_nil
  | cons c v ih =>
    obtain ⟨_, w, hw, rfl⟩ := utf8Encode_cons h
    rw [noPair_cons] at hn
    rw [noPair_append]
    refine ⟨utf8Char_noPair c, ih hw hn.2, ?_⟩
    rintro ⟨h1, h2⟩
    have hc := utf8Char_last (by omega) h1
    apply hn.1
    refine ⟨hc, ?_⟩
    cases v with
    | nil => cases hw; cases h2
    | cons d v =>
      obtain ⟨_, w', _, rfl⟩ := utf8Encode_cons hw
      rw [List.head?_append_of_ne_nil _ (utf8Char_ne_nil d)] at h2
      rw [utf8Char_head (by omega) h2]; rfl

theorem decode_crlf {s t : List Nat} (h : utf8Decode s = some t) :
    utf8Decode (CRLF ++ s) = some (CRLF ++ t) := by
  have e1 := utf8Decode_char 13 (by decide) (utf8Char 10 ++ s)
  have e2 := utf8Decode_char 10 (by decide) s
  rw [h] at e2
  rw [e2] at e1
  exact e1

theorem encode_split {l r vb : List Nat} (h : utf8Encode (l ++ 13 :: 10 :: r) = some vb) :
    ∃ lb rb, utf8Encode l = some lb ∧ utf8Encode r = some rb ∧ vb = lb ++ 13 :: 10 :: rb := by
  rw [utf8Encode_append] at h
  cases hl : utf8Encode l with
  | none => rw [hl] at h; cases h
  | some lb =>
    rw [hl] at h
    simp only [Option.bind_some] at h
    cases hr : utf8Encode (13 :: 10 :: r) with
    | none => rw [hr] at h; cases h
    | some x =>
      rw [hr] at h; cases h
      obtain ⟨_, w, hw, rfl⟩ := utf8Encode_cons hr
      obtain ⟨_, w', hw', rfl⟩ := utf8Encode_cons hw
      exact ⟨lb, w', rfl, hw', rfl⟩

/-- The physical lines a value is written on. -/
theorem value_lines (v vb : List Nat) (h : utf8Encode v = some vb) :
    ∃ (s0 : Bytes) (ss : List Bytes) (t0 : Str) (ts : List Str),
      escape vb = s0 ++ (ss.map fun s => CRLF ++ 32 :: s).flatten ∧ NoPair 13 10 s0 ∧
      (∀ s ∈ ss, NoPair 13 10 s) ∧ utf8Decode s0 = some t0 ∧
      (ss.map fun s => utf8Decode (CRLF ++ s)) = ts.map some ∧ v = t0 ++ ts.flatten := by
  induction hn : v.length using Nat.strongRecOn generalizing v vb with
  | ind n ih =>
    subst hn
    cases hs : splitPair 13 10 v with
    | none =>
      rw [splitPair_none_iff] at hs
      have hn := encode_noPair h hs
      exact ⟨vb, [], v, [], by simp [escape_noPair hn], hn, by simp, utf8Decode_encode v vb h, rfl, by simp⟩
    | some p =>
      obtain ⟨l, r⟩ := p
      obtain ⟨rfl, hl⟩ := splitPair_some hs
      obtain ⟨lb, rb, hlb, hrb, rfl⟩ := encode_split h
      obtain ⟨s0, ss, t0, ts, e1, e2, e3, e4, e5, e6⟩ := ih r.length (by simp; omega) r rb hrb rfl
      have hlbn := encode_noPair hlb hl
      refine ⟨lb, s0 :: ss, l, (CRLF ++ t0) :: ts, ?_, hlbn, ?_, utf8Decode_encode l lb hlb, ?_, ?_⟩
      · rw [escape_append _ hlbn, e1]; simp [CRLF]
      · intro s hs
        rcases List.mem_cons.1 hs with rfl | hs
        · exact e2
        · exact e3 s hs
      · simp only [List.map_cons, decode_crlf e4, e5]
      · rw [e6]; simp [CRLF]

/-! ## Keys -/

theorem mem_replaceChar {c d x : Nat} {s : List Nat} (h : x ∈ replaceChar c d s) : x = d ∨ x ∈ s := by
  unfold replaceChar at h
  obtain ⟨y, hy, rfl⟩ := List.mem_map.1 h
  split
  · exact .inl rfl
  · exact .inr hy

theorem replaceChar_lower (s : List Nat) :
    replaceChar 45 95 ((replaceChar 95 45 s).map asciiLower) = replaceChar 45 95 (s.map asciiLower) := by
  unfold replaceChar
  simp only [List.map_map]
  apply List.map_congr_left
  intro c _
  simp only [Function.comp]
  by_cases h : c = 95
  · subst h; decide
  · rw [if_neg h]

/-- What the receiver makes of a transmitted ASCII key. -/
theorem normalizeKey_title (U : Uni) (k : Str) (h : ∀ c ∈ k, c < 128) :
    normalizeKey U (asciiTitle (replaceChar 95 45 k)) = normalizeKey U k := by
  have h1 : ∀ c ∈ replaceChar 95 45 k, c < 128 := by
    intro c hc
    rcases mem_replaceChar hc with rfl | hc
    · omega
    · exact h c hc
  unfold normalizeKey
  rw [asciiTitle, U.lower_ascii _ (titleFrom_lt false _ h1), U.lower_ascii _ h, asciiLower_title, replaceChar_lower]

theorem title_getElem? (prev : Bool) (s : List Nat) (b : Nat) (hb : isAsciiAlpha b = false) (i : Nat) :
    (titleFrom prev s)[i]? = some b → s[i]? = some b := by
  induction s generalizing prev i with
  | nil => simp [titleFrom]
  | cons c s ih =>
    cases i with
    | zero =>
      simp only [titleFrom, List.getElem?_cons_zero, Option.some.injEq]
      intro h
      unfold isAsciiAlpha at hb
      unfold asciiLower asciiUpper at h
      simp at hb
      split at h <;> split at h <;> omega
    | succ i =>
      simp only [titleFrom, List.getElem?_cons_succ]
      exact ih _ i

theorem wireKey_getElem? (k : List Nat) (b : Nat) (hb : isAsciiAlpha b = false) (h45 : b ≠ 45) (i : Nat)
    (h : (asciiTitle (replaceChar 95 45 k))[i]? = some b) : k[i]? = some b := by
  have := title_getElem? false _ b hb i h
  unfold replaceChar at this
  rw [List.getElem?_map] at this
  cases hk : k[i]? with
  | none => rw [hk] at this; cases this
  | some x =>
    rw [hk] at this
    simp only [Option.map_some, Option.some.injEq] at this
    split at this
    · omega
    · rw [this]

theorem noPair_iff_getElem? {a b : Nat} {s : List Nat} :
    NoPair a b s ↔ ∀ i, ¬ (s[i]? = some a ∧ s[i + 1]? = some b) := by
  induction s with
  | nil => simp [noPair_nil]
  | cons c s ih =>
    rw [noPair_cons, ih]
    constructor
    · rintro ⟨h1, h2⟩ i
      cases i with
      | zero => simpa [List.head?_eq_getElem?] using h1
      | succ i => simpa using h2 i
    · intro h
      refine ⟨?_, fun i => ?_⟩
      · simpa [List.head?_eq_getElem?] using h 0
      · simpa using h (i + 1)

theorem wireKey_noPair {a b : Nat} (ha : isAsciiAlpha a = false) (hb : isAsciiAlpha b = false) (ha' : a ≠ 45)
    (hb' : b ≠ 45) {k : List Nat} (h : NoPair a b k) : NoPair a b (asciiTitle (replaceChar 95 45 k)) := by
  rw [noPair_iff_getElem?] at h ⊢
  rintro i ⟨h1, h2⟩
  exact h i ⟨wireKey_getElem? k a ha ha' i h1, wireKey_getElem? k b hb hb' _ h2⟩

theorem wireKey_head {k : List Nat} (h : k.head? ≠ some 32) : (asciiTitle (replaceChar 95 45 k)).head? ≠ some 32 := by
  rw [List.head?_eq_getElem?] at h ⊢
  exact fun h' => h (wireKey_getElem? k 32 (by decide) (by omega) 0 h')

/-! ## Header lines -/

theorem set_set (d : Box) (k v w : Str) : Dict.set (Dict.set d k v) k w = Dict.set d k w := by
  induction d with
  | nil => simp [Dict.set]
  | cons p d ih =>
    obtain ⟨k', v'⟩ := p
    by_cases h : k' = k
    · simp [Dict.set, h]
    · simp [Dict.set, h, ih]

theorem set_get? (d : Box) (k v : Str) (h : Dict.get? d k = some v) : Dict.set d k v = d := by
  induction d with
  | nil => simp at h
  | cons p d ih =>
    obtain ⟨k', v'⟩ := p
    by_cases hk : k' = k
    · simp [Dict.get?, hk] at h; simp [Dict.set, hk, h]
    · simp only [Dict.get?, if_neg hk] at h; simp [Dict.set, hk, ih h]

theorem cont_lines (U : Uni) (K : Str) (ss : List Bytes) (ts : List Str)
    (h : (ss.map fun s => utf8Decode (CRLF ++ s)) = ts.map some) (B : Box) (acc : Str)
    (hB : Dict.get? B K = some acc) :
    headerLines U (some K, B) (ss.map (32 :: ·)) = .ok (some K, Dict.set B K (acc ++ ts.flatten)) := by
  induction ss generalizing ts B acc with
  | nil =>
    cases ts with
    | nil => simp [headerLines, set_get? B K acc hB]
    | cons t ts => cases h
  | cons s ss ih =>
    cases ts with
    | nil => cases h
    | cons t ts =>
      simp only [List.map_cons, List.cons.injEq] at h
      obtain ⟨h1, h2⟩ := h
      have step : headerLine U (some K, B) (32 :: s) = .ok (some K, Dict.set B K (acc ++ t)) := by
        simp [headerLine, ensureStr, h1, hB, bind, Except.bind, pure, Except.pure]
      rw [List.map_cons, headerLines, step]
      show headerLines U _ _ = _
      rw [ih ts h2 _ (acc ++ t) (Dict.get?_set_same _ _ _), set_set, List.flatten_cons, List.append_assoc]

def unlines (ls : List Bytes) : Bytes := (ls.map (· ++ CRLF)).flatten

theorem unlines_append (a b : List Bytes) : unlines (a ++ b) = unlines a ++ unlines b := by simp [unlines]

theorem unlines_cont (s0 : Bytes) (ss : List Bytes) :
    s0 ++ (ss.map fun s => CRLF ++ 32 :: s).flatten ++ CRLF = unlines (s0 :: ss.map (32 :: ·)) := by
  induction ss generalizing s0 with
  | nil => simp [unlines]
  | cons s ss ih =>
    have := ih (32 :: s)
    simp only [unlines, List.map_cons, List.flatten_cons, List.append_assoc] at this ⊢
    rw [← this]

theorem item_lines (U : Uni) (k v vb : List Nat) (hk : WireKey k) (h : utf8Encode v = some vb) :
    ∃ ls : List Bytes,
      asciiTitle (replaceChar 95 45 k) ++ [58, 32] ++ escape vb ++ CRLF = unlines ls ∧
      (∀ l ∈ ls, l ≠ [] ∧ NoPair 13 10 l) ∧
      ∀ cur B, headerLines U (cur, B) ls = .ok (some (normalizeKey U k), Dict.set B (normalizeKey U k) v) := by
  obtain ⟨s0, ss, t0, ts, e1, e2, e3, e4, e5, rfl⟩ := value_lines v vb h
  have hk1 : ∀ c ∈ asciiTitle (replaceChar 95 45 k), c < 128 := by
    apply titleFrom_lt
    intro c hc
    rcases mem_replaceChar hc with rfl | hc
    · omega
    · exact hk.ascii c hc
  have hkb := wireKey_noPair (a := 13) (b := 10) (by decide) (by decide) (by omega) (by omega) hk.noBreak
  have hkc := wireKey_noPair (a := 58) (b := 32) (by decide) (by decide) (by omega) (by omega) hk.noColon
  have hks := wireKey_head hk.noSpace
  have hnorm := normalizeKey_title U k hk.ascii
  generalize asciiTitle (replaceChar 95 45 k) = kb at hk1 hkb hkc hks hnorm
  refine ⟨(kb ++ [58, 32] ++ s0) :: ss.map (32 :: ·), ?_, ?_, ?_⟩
  · rw [← unlines_cont, e1]; simp
  · intro l hl
    rcases List.mem_cons.1 hl with rfl | hl
    · refine ⟨by simp, ?_⟩
      rw [noPair_append, noPair_append]
      refine ⟨⟨hkb, by decide, by simp⟩, e2, ?_⟩
      simp
    · obtain ⟨s, hs, rfl⟩ := List.mem_map.1 hl
      refine ⟨by simp, ?_⟩
      rw [noPair_cons]
      exact ⟨by simp, e3 s hs⟩
  · intro cur B
    have hsc : splitColon (kb ++ [58, 32] ++ s0) = some (kb, s0) := by
      rw [splitColon_eq, List.append_assoc]
      exact splitPair_append (by omega) s0 hkc
    have step : headerLine U (cur, B) (kb ++ [58, 32] ++ s0) =
        .ok (some (normalizeKey U k), Dict.set B (normalizeKey U k) t0) := by
      unfold headerLine
      split
      · rename_i rest heq
        exfalso
        cases kb with
        | nil => simp at heq
        | cons c kb => simp at heq; exact hks (by rw [heq.1]; rfl)
      · rw [hsc]
        simp [ensureStr, utf8Decode_ascii kb hk1, e4, hnorm, bind, Except.bind, pure, Except.pure]
    rw [headerLines, step]
    show headerLines U _ _ = _
    rw [cont_lines U _ ss ts e5 _ t0 (Dict.get?_set_same _ _ _), set_set]

/-! ## Whole boxes -/

/-- What is written for one item: the body is announced by its length. -/
def wireItem (box : Box) (p : Str × Str) : Str × Str :=
  if p.1 = BODY then (LENGTH, natStr ((Dict.get? box BODY).getD []).length) else p

theorem serializeItem_eq (box : Box) (k v : Str) :
    serializeItem box k v = (do
      let kb ← ensureBinary (wireItem box (k, v)).1
      let vb ← ensureBinary (wireItem box (k, v)).2
      return asciiTitle (replaceChar 95 45 kb) ++ [58, 32] ++ escape vb ++ CRLF) := by
  unfold serializeItem wireItem
  by_cases h : k = BODY <;> simp [h]

theorem headerLines_append (U : Uni) (st : Option Str × Box) (a b : List Bytes) :
    headerLines U st (a ++ b) = headerLines U st a >>= fun st => headerLines U st b := by
  induction a generalizing st with
  | nil => rfl
  | cons l a ih =>
    simp only [List.cons_append, headerLines]
    cases headerLine U st l with
    | error e => rfl
    | ok st => exact ih st

theorem items_lines (U : Uni) (box : Box) (items : List (Str × Str))
    (hk : ∀ p ∈ items, WireKey (wireItem box p).1)
    (hv : ∀ p ∈ items, ∃ vb, utf8Encode (wireItem box p).2 = some vb) :
    ∃ ls : List Bytes, serializeItems box items = .ok (unlines ls) ∧ (∀ l ∈ ls, l ≠ [] ∧ NoPair 13 10 l) ∧
      ∀ cur B, ∃ cur', headerLines U (cur, B) ls =
        .ok (cur', (items.map (wireItem box)).foldl (fun d p => Dict.set d (normalizeKey U p.1) p.2) B) := by
  induction items with
  | nil => exact ⟨[], rfl, by simp, fun cur B => ⟨cur, rfl⟩⟩
  | cons p items ih =>
    obtain ⟨ls, e1, e2, e3⟩ := ih (fun q hq => hk q (List.mem_cons_of_mem _ hq))
      (fun q hq => hv q (List.mem_cons_of_mem _ hq))
    obtain ⟨k, v⟩ := p
    have hk0 := hk (k, v) (by simp)
    obtain ⟨vb, hvb⟩ := hv (k, v) (by simp)
    obtain ⟨ls0, f1, f2, f3⟩ := item_lines U _ _ vb hk0 hvb
    refine ⟨ls0 ++ ls, ?_, ?_, ?_⟩
    · have hs : serializeItem box k v = .ok (unlines ls0) := by
        rw [serializeItem_eq, ← f1]
        simp [ensureBinary, utf8Encode_ascii _ hk0.ascii, hvb, bind, Except.bind, pure, Except.pure]
      rw [serializeItems, hs, unlines_append]
      simp [e1, bind, Except.bind, pure, Except.pure]
    · intro l hl
      rcases List.mem_append.1 hl with hl | hl
      · exact f2 l hl
      · exact e2 l hl
    · intro cur B
      obtain ⟨cur', h⟩ := e3 (some (normalizeKey U (wireItem box (k, v)).1))
        (Dict.set B (normalizeKey U (wireItem box (k, v)).1) (wireItem box (k, v)).2)
      refine ⟨cur', ?_⟩
      rw [headerLines_append, f3]
      exact h

theorem foldl_set (items : List (Str × Str)) (d : Box) (h : (Dict.keys (d ++ items)).Nodup) :
    items.foldl (fun d p => Dict.set d p.1 p.2) d = d ++ items := by
  induction items generalizing d with
  | nil => simp
  | cons p items ih =>
    obtain ⟨k, v⟩ := p
    have hk : k ∉ Dict.keys d := by
      unfold Dict.keys at h ⊢
      rw [List.map_append, List.nodup_append] at h
      intro hm
      exact h.2.2 k hm k (by simp) rfl
    rw [List.foldl_cons, Dict.set_of_not_mem v hk, ih]
    · simp
    · simpa using h

theorem keys_wireItem (box : Box) (items : Box) :
    Dict.keys (items.map (wireItem box)) = (Dict.keys items).map fun k => if k = BODY then LENGTH else k := by
  unfold Dict.keys
  rw [List.map_map, List.map_map]
  apply List.map_congr_left
  intro p _
  simp only [Function.comp, wireItem]
  split <;> rfl

theorem wireItem_nodup (box : Box) (items : Box) (hwf : Dict.WF items) (hl : LENGTH ∉ Dict.keys items) :
    (Dict.keys (items.map (wireItem box))).Nodup := by
  rw [keys_wireItem]
  apply List.Nodup.map_on ?_ hwf
  intro x hx y hy h
  by_cases h1 : x = BODY <;> by_cases h2 : y = BODY
  · rw [h1, h2]
  · rw [if_pos h1, if_neg h2] at h; exact absurd (h ▸ hy) hl
  · rw [if_neg h1, if_pos h2] at h; exact absurd (h ▸ hx) hl
  · rw [if_neg h1, if_neg h2] at h; exact h

theorem get?_wireItem (box : Box) (items : Box) (hl : LENGTH ∉ Dict.keys items) :
    Dict.get? (items.map (wireItem box)) LENGTH =
      (Dict.get? items BODY).map fun _ => natStr ((Dict.get? box BODY).getD []).length := by
  induction items with
  | nil => rfl
  | cons p items ih =>
    obtain ⟨k, v⟩ := p
    simp only [Dict.keys, List.map_cons, List.mem_cons, not_or] at hl
    by_cases h : k = BODY
    · simp [wireItem, h, Dict.get?]
    · have hk : ¬ k = LENGTH := fun e => hl.1 e.symm
      simp only [List.map_cons, wireItem, h, if_false, Dict.get?, hk]
      exact ih hl.2

theorem erase_wireItem (box : Box) (items : Box) (hwf : Dict.WF items) (hl : LENGTH ∉ Dict.keys items) :
    Dict.erase (items.map (wireItem box)) LENGTH = Dict.erase items BODY := by
  induction items with
  | nil => rfl
  | cons p items ih =>
    obtain ⟨k, v⟩ := p
    simp only [Dict.keys, List.map_cons, List.mem_cons, not_or] at hl
    unfold Dict.WF Dict.keys at hwf
    rw [List.map_cons, List.nodup_cons] at hwf
    by_cases h : k = BODY
    · subst h
      simp only [List.map_cons, wireItem, if_true, Dict.erase]
      have : ∀ p ∈ items, wireItem box p = p := by
        intro p hp
        unfold wireItem
        rw [if_neg]
        intro e
        exact hwf.1 (List.mem_map.2 ⟨p, hp, e⟩)
      rw [List.map_congr_left this, List.map_id']
    · have hk : ¬ k = LENGTH := fun e => hl.1 e.symm
      simp only [List.map_cons, wireItem, h, if_false, Dict.erase, hk]
      rw [← ih hwf.2 hl.2]

theorem map_wireItem_id (box : Box) (items : Box) (h : BODY ∉ Dict.keys items) : items.map (wireItem box) = items := by
  have : ∀ p ∈ items, wireItem box p = p := by
    intro p hp
    unfold wireItem
    rw [if_neg]
    intro e
    exact h (List.mem_map.2 ⟨p, hp, e⟩)
  rw [List.map_congr_left this, List.map_id']

variable {A : Type} (U : Uni) (H : A → Box → Outcome A)

/-- Complete non-empty lines are collected. -/
theorem go_lines (st : St A) (ls : List Bytes) (rest : Bytes) (hl : st.lineMode = true) (hb : st.buffer = [])
    (hd : st.disconnecting = false) (h : ∀ l ∈ ls, l ≠ [] ∧ NoPair 13 10 l) :
    go U H st (unlines ls ++ rest) = go U H { st with reqBuf := st.reqBuf ++ ls } rest := by
  induction ls generalizing st with
  | nil => simp [unlines]
  | cons l ls ih =>
    have hl0 := h l (by simp)
    have e : unlines (l :: ls) ++ rest = l ++ 13 :: 10 :: (unlines ls ++ rest) := by
      simp [unlines, CRLF]
    have hf : findDelim (unlines (l :: ls) ++ rest) = some (l, unlines ls ++ rest) := by
      rw [e, findDelim_eq]; exact splitPair_append (by omega) _ hl0.2
    rw [go_line_some U H st _ l (unlines ls ++ rest) hl hf hb]
    have hlr : lineReceived U H st l = ({ st with reqBuf := st.reqBuf ++ [l] }, none) := by
      unfold lineReceived; rw [if_pos hl0.1]
    rw [hlr, andThen_ok _ _ (by exact hd),
      ih { st with reqBuf := st.reqBuf ++ [l] } hl hb hd (fun x hx => h x (List.mem_cons_of_mem _ hx))]
    simp

/-- The blank line ends the header. -/
theorem go_blank (st : St A) (rest : Bytes) (hl : st.lineMode = true) (hb : st.buffer = []) :
    go U H st (CRLF ++ rest) = andThen (lineReceived U H st []) (fun st => go U H st rest) :=
  go_line_some U H st _ [] rest hl rfl hb

theorem title_keyword_ascii : ∀ k ∈ keywords.map asciiTitle, (∀ c ∈ k, c < 128) ∧
    normalizeKey Uni.ascii k = k := by decide

theorem normalizeKey_canonical (k : Str) (hk : WireKey k) (hc : CanonicalKey k) : normalizeKey U k = k := by
  rcases hc with ⟨h1, h2⟩ | h
  · unfold normalizeKey
    have e1 : k.map asciiLower = k := by
      conv => rhs; rw [← List.map_id' k]
      apply List.map_congr_left
      intro c hc
      unfold asciiLower; rw [if_neg (h1 c hc).1]
    have e2 : replaceChar 45 95 k = k := by
      unfold replaceChar
      conv => rhs; rw [← List.map_id' k]
      apply List.map_congr_left
      intro c hc
      rw [if_neg (h1 c hc).2]
    rw [U.lower_ascii k hk.ascii, e1, e2, if_neg h2]
  · have := (title_keyword_ascii k h).2
    unfold normalizeKey at this ⊢
    rw [U.lower_ascii k hk.ascii]
    exact this

theorem encode_scalar (v : Str) (h : ∀ c ∈ v, IsScalar c) : ∃ vb, utf8Encode v = some vb := by
  induction v with
  | nil => exact ⟨[], rfl⟩
  | cons c v ih =>
    obtain ⟨w, hw⟩ := ih (fun c hc => h c (List.mem_cons_of_mem _ hc))
    exact ⟨utf8Char c ++ w, by rw [utf8Encode, if_pos (h c (by simp)), hw]; rfl⟩

theorem wireKey_length : WireKey LENGTH :=
  ⟨by decide, by decide, by decide, by decide⟩

theorem natStr_scalar (n : Nat) : ∀ c ∈ natStr n, IsScalar c := by
  intro c hc
  have := natStr_isDigit n c hc
  unfold isDigit at this
  simp at this
  left; omega

theorem wireItem_wireKey (box : Box) (p : Str × Str) (h : WireKey p.1) : WireKey (wireItem box p).1 := by
  unfold wireItem
  split
  · exact wireKey_length
  · exact h

/-- The header of a box parses to its items, the body replaced by its length. -/
theorem header_of_box (b : Box) (hwf : (b.map Prod.fst).Nodup) (hnl : ∀ p ∈ b, p.1 ≠ LENGTH)
    (hk : ∀ p ∈ b, WireKey p.1 ∧ CanonicalKey p.1) (hv : ∀ p ∈ b, ∀ c ∈ p.2, IsScalar c) :
    ∃ ls : List Bytes, serializeItems b b = .ok (unlines ls) ∧ (∀ l ∈ ls, l ≠ [] ∧ NoPair 13 10 l) ∧
      parseJuiceHeaders U ls = .ok (((Dict.get? b BODY).getD []).length, Dict.erase b BODY) := by
  have hnl' : LENGTH ∉ Dict.keys b := by
    intro h
    obtain ⟨p, hp, e⟩ := List.mem_map.1 h
    exact hnl p hp e
  obtain ⟨ls, e1, e2, e3⟩ := items_lines U b b (fun p hp => wireItem_wireKey b p (hk p hp).1) (by
    intro p hp
    apply encode_scalar
    unfold wireItem
    split
    · exact natStr_scalar _
    · exact hv p hp)
  refine ⟨ls, e1, e2, ?_⟩
  obtain ⟨cur, e4⟩ := e3 none []
  have hfold : (b.map (wireItem b)).foldl (fun d p => Dict.set d (normalizeKey U p.1) p.2) [] = b.map (wireItem b) := by
    have e : ∀ (l : List (Str × Str)) (d : Box), (∀ p ∈ l, normalizeKey U p.1 = p.1) →
        l.foldl (fun d p => Dict.set d (normalizeKey U p.1) p.2) d = l.foldl (fun d p => Dict.set d p.1 p.2) d := by
      intro l
      induction l with
      | nil => intros; rfl
      | cons p l ih =>
        intro d h
        rw [List.foldl_cons, List.foldl_cons, h p (by simp), ih _ (fun q hq => h q (List.mem_cons_of_mem _ hq))]
    rw [e, foldl_set]
    · rfl
    · exact wireItem_nodup b b hwf hnl'
    · intro p hp
      obtain ⟨q, hq, rfl⟩ := List.mem_map.1 hp
      unfold wireItem
      split
      · exact normalizeKey_canonical U LENGTH wireKey_length (by left; decide)
      · exact normalizeKey_canonical U _ (hk q hq).1 (hk q hq).2
  rw [hfold] at e4
  unfold parseJuiceHeaders
  rw [e4]
  simp only [bind, Except.bind]
  rw [get?_wireItem b b hnl']
  cases hb : Dict.get? b BODY with
  | none =>
    have hb' : BODY ∉ Dict.keys b := (Dict.get?_eq_none_iff b BODY).1 hb
    have := erase_wireItem b b hwf hnl'
    rw [map_wireItem_id b b hb'] at this ⊢
    have hl : Dict.erase b LENGTH = b := by
      clear this e4 hfold e1 e3 hv hk hnl hwf hb
      induction b with
      | nil => rfl
      | cons p b ih =>
        obtain ⟨k, v⟩ := p
        simp only [Dict.keys, List.map_cons, List.mem_cons, not_or] at hnl' hb'
        rw [Dict.erase, if_neg (fun e => hnl'.1 e.symm), ih hnl'.2 hb'.2]
    rw [hl] at this
    rw [← this]; rfl
  | some v =>
    simp only [Option.map_some, Option.getD_some]
    rw [← intStr_natCast, U.int_intStr]
    simp only
    rw [erase_wireItem b b hwf hnl']; rfl

/-- What the receiver makes of a box: the body comes last. -/
def arrived (b : Box) : Box :=
  match Dict.get? b BODY with
  | none => b
  | some v => Dict.erase b BODY ++ [(BODY, v)]

theorem erase_of_not_mem (b : Box) (k : Str) (h : k ∉ Dict.keys b) : Dict.erase b k = b := by
  induction b with
  | nil => rfl
  | cons p b ih =>
    obtain ⟨k', v⟩ := p
    simp only [Dict.keys, List.map_cons, List.mem_cons, not_or] at h
    rw [Dict.erase, if_neg (fun e => h.1 e.symm), ih h.2]

theorem mem_erase (b : Box) (k : Str) (hwf : (b.map Prod.fst).Nodup) (p : Str × Str) :
    p ∈ Dict.erase b k ↔ p ∈ b ∧ p.1 ≠ k := by
  induction b with
  | nil => simp [Dict.erase]
  | cons q b ih =>
    obtain ⟨k', v⟩ := q
    rw [List.map_cons, List.nodup_cons] at hwf
    have ih := ih hwf.2
    by_cases h : k' = k
    · subst h
      rw [Dict.erase, if_pos rfl]
      constructor
      · intro hp
        exact ⟨List.mem_cons_of_mem _ hp, fun e => hwf.1 (List.mem_map.2 ⟨p, hp, e⟩)⟩
      · rintro ⟨hp, hne⟩
        rcases List.mem_cons.1 hp with rfl | hp
        · exact absurd rfl hne
        · exact hp
    · rw [Dict.erase, if_neg h, List.mem_cons, List.mem_cons, ih]
      constructor
      · rintro (rfl | ⟨h1, h2⟩)
        · exact ⟨.inl rfl, h⟩
        · exact ⟨.inr h1, h2⟩
      · rintro ⟨rfl | h1, h2⟩
        · exact .inl rfl
        · exact .inr ⟨h1, h2⟩

theorem arrived_same (b : Box) (hwf : (b.map Prod.fst).Nodup) : SameBox b (arrived b) := by
  unfold arrived
  cases h : Dict.get? b BODY with
  | none => exact ⟨hwf, fun _ => Iff.rfl⟩
  | some v =>
    have hm := Dict.mem_of_get? h
    constructor
    · have h1 : (Dict.keys (Dict.erase b BODY)).Nodup := (show Dict.WF b from hwf).erase BODY
      simp only [List.map_append, List.map_cons, List.map_nil]
      rw [List.nodup_append]
      refine ⟨h1, by simp, ?_⟩
      intro x hx y hy
      simp at hy; subst hy
      intro e; subst e
      obtain ⟨p, hp, e⟩ := List.mem_map.1 hx
      exact ((mem_erase b BODY hwf p).1 hp).2 e
    · intro p
      rw [List.mem_append, mem_erase b BODY hwf, List.mem_singleton]
      constructor
      · rintro (h | rfl)
        · exact h.1
        · exact hm
      · intro hp
        by_cases hk : p.1 = BODY
        · right
          obtain ⟨k, w⟩ := p
          simp only at hk; subst hk
          have := Dict.get?_of_mem (show Dict.WF b from hwf) hp
          rw [h] at this; cases this; rfl
        · exact .inl ⟨hp, hk⟩

/-- The wire form of a legal box, and its effect on a parser between boxes. -/
theorem go_box (b : Box) (hb : LegalBox b) :
    ∃ x, serialize b = .ok x ∧ ∀ (st : St A) (rest : Bytes), st.lineMode = true → st.buffer = [] →
      st.reqBuf = [] → st.disconnecting = false → st.inner = false → Benign H →
      ∃ st' : St A, go U H st (x ++ rest) = go U H st' rest ∧
        st'.lineMode = true ∧ st'.buffer = [] ∧ st'.reqBuf = [] ∧ st'.disconnecting = false ∧ st'.inner = false ∧
        st'.trace = st.trace ++ [.box (arrived b)] ∧ st'.app = (H st.app (arrived b)).app := by
  obtain ⟨ls, e1, e2, e3⟩ := header_of_box U b hb.wf hb.noLength hb.keys hb.values
  have hnl : Dict.has b LENGTH = false := by
    rw [Bool.eq_false_iff]
    intro h
    rw [Dict.has_iff] at h
    obtain ⟨p, hp, e⟩ := List.mem_map.1 h
    exact hb.noLength p hp e
  unfold serialize arrived
  rw [if_neg (by simp [hnl]), e1]
  cases hbody : Dict.get? b BODY with
  | none =>
    have hbk : BODY ∉ Dict.keys b := (Dict.get?_eq_none_iff b BODY).1 hbody
    refine ⟨unlines ls ++ CRLF, rfl, ?_⟩
    intro st rest h1 h2 h3 h4 h5 hH
    rw [hbody, erase_of_not_mem b BODY hbk] at e3
    have hH := hH st.app b
    rw [List.append_assoc, go_lines U H st ls _ h1 h2 h4 e2, go_blank U H _ _ (by exact h1) (by exact h2)]
    have hlr : lineReceived U H { st with reqBuf := st.reqBuf ++ ls } [] = handle H { st with reqBuf := [] } b := by
      unfold lineReceived
      simp [h3, e3]
    rw [hlr]
    simp only [handle, hH.1, hH.2.1, hH.2.2, h4, Bool.or_false, Bool.false_eq_true, if_false]
    refine ⟨_, andThen_ok _ _ rfl, h1, h2, rfl, rfl, h5, rfl, rfl⟩
  | some v =>
    have hm := hb.body _ (Dict.mem_of_get? hbody) rfl
    simp only at hm
    refine ⟨unlines ls ++ CRLF ++ v, ?_, ?_⟩
    · simp [ensureBinary, utf8Encode_ascii v hm.2, bind, Except.bind, pure, Except.pure]
    · intro st rest h1 h2 h3 h4 h5 hH
      rw [hbody] at e3
      simp only [Option.getD_some] at e3
      have hlen : (v.length : Int) ≠ 0 := by
        have : v.length ≠ 0 := fun e => hm.1 (List.length_eq_zero_iff.1 e)
        omega
      have hH := hH st.app (Dict.erase b BODY ++ [(BODY, v)])
      rw [List.append_assoc, List.append_assoc, go_lines U H st ls _ h1 h2 h4 e2,
        go_blank U H _ _ (by exact h1) (by exact h2)]
      have hlr : lineReceived U H { st with reqBuf := st.reqBuf ++ ls } [] =
          ({ st with reqBuf := [], bodyRemaining := (v.length : Int), bodyBuf := [], pending := Dict.erase b BODY,
                     lineMode := false }, none) := by
        unfold lineReceived
        simp only [h3, List.nil_append, e3, ne_eq, not_true_eq_false, if_false, hlen, not_false_eq_true, if_true]
      rw [hlr, andThen_ok _ _ (by exact h4), go_raw U H _ _ (by rfl) (by exact h2)]
      dsimp only
      rw [if_neg (by rw [h4]; decide), if_neg (by simp [hm.1]), rawGo_eq U H _ _ (by exact h2)]
      dsimp only
      rw [if_neg (by rw [h5]; decide)]
      simp only [bodySplit_spec, List.length_append, Int.natCast_add, Int.toNat_natCast]
      have hsub : (v.length : Int) - ((v.length : Int) + (rest.length : Int)) = -(rest.length : Int) := by omega
      rw [hsub, if_pos (by omega)]
      have hp1 : (if -(rest.length : Int) < 0 then (v ++ rest).take v.length else v ++ rest) = v := by
        split
        · simp
        · have : rest = [] := List.length_eq_zero_iff.1 (by omega)
          rw [this, List.append_nil]
      have hp2 : (if -(rest.length : Int) < 0 then (v ++ rest).drop v.length else []) = rest := by
        split
        · simp
        · exact (List.length_eq_zero_iff.1 (by omega)).symm
      rw [hp1, hp2]
      have hnm : BODY ∉ Dict.keys (Dict.erase b BODY) := by
        intro h
        obtain ⟨p, hp, e⟩ := List.mem_map.1 h
        exact ((mem_erase b BODY hb.wf p).1 hp).2 e
      unfold finishBody
      simp only [List.nil_append, ensureStr, utf8Decode_ascii v hm.2, Dict.set_of_not_mem v hnm]
      simp only [handle, hH.1, hH.2.1, hH.2.2, h4, h5, Bool.or_false, Bool.false_eq_true, if_false]
      refine ⟨{ st with lineMode := true, reqBuf := [], bodyRemaining := max (-(rest.length : Int)) 0, bodyBuf := [],
                        pending := [], app := (H st.app (Dict.erase b BODY ++ [(BODY, v)])).app,
                        trace := st.trace ++ [.box (Dict.erase b BODY ++ [(BODY, v)])] },
        ?_, rfl, h2, rfl, h4, h5, rfl, rfl⟩
      split
      · rename_i hr
        subst hr
        rw [go_nil U H _ (by exact h4) (by exact h2)]
        simp [h4, h5]
      · simp [h4, h5]

end Verif.Juice
