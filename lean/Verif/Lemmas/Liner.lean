import Verif.Spec.Liner
import Verif.Py.Split
/-!
# Lemmas about line receivers
-/
namespace Verif.Liner
open Verif.Py

theorem find_some {delim : Bytes} : ∀ {s l r : Bytes}, find delim s = some (l, r) →
    s = l ++ delim ++ r ∧ ∀ k, k < l.length → ¬ delim <+: s.drop k
  | [], l, r, h => by
    unfold find at h
    split at h
    · rename_i hp
      cases h
      rw [List.isPrefixOf_iff_prefix, List.prefix_nil] at hp
      subst hp; simp
    · cases h
  | c :: s, l, r, h => by
    unfold find at h
    split at h
    · rename_i hp
      rw [List.isPrefixOf_iff_prefix] at hp
      cases h
      refine ⟨?_, by simp⟩
      obtain ⟨t, ht⟩ := hp
      rw [← ht]; simp
    · rename_i hp
      rw [List.isPrefixOf_iff_prefix] at hp
      cases hf : find delim s with
      | none => rw [hf] at h; cases h
      | some x =>
        obtain ⟨l', r'⟩ := x
        rw [hf] at h
        cases h
        obtain ⟨h1, h2⟩ := find_some hf
        refine ⟨by rw [h1]; simp, ?_⟩
        intro k hk
        cases k with
        | zero => exact hp
        | succ k => exact h2 k (by simpa using hk)

theorem find_none {delim : Bytes} : ∀ {s : Bytes}, find delim s = none → ∀ k, k ≤ s.length → ¬ delim <+: s.drop k
  | [], h, k, hk => by
    unfold find at h
    split at h
    · cases h
    · rename_i hp
      rw [List.isPrefixOf_iff_prefix] at hp
      simpa using hp
  | c :: s, h, k, hk => by
    unfold find at h
    split at h
    · cases h
    · rename_i hp
      rw [List.isPrefixOf_iff_prefix] at hp
      cases k with
      | zero => exact hp
      | succ k =>
        have hf : find delim s = none := by
          cases hf : find delim s with
          | none => rfl
          | some x => rw [hf] at h; cases h
        exact find_none hf k (by simpa using hk)

/-- An occurrence that ends at `j` begins at `j - |delim|`. -/
theorem suffix_take {delim s : Bytes} {j : Nat} (hj : j ≤ s.length) (h : delim <:+ s.take j) : delim <+: s.drop (j - delim.length) := by
  obtain ⟨t, ht⟩ := h
  have hl : t.length + delim.length = j := by
    have := congrArg List.length ht
    simp at this; omega
  have : s = t ++ (delim ++ s.drop j) := by
    rw [← List.append_assoc, ht, List.take_append_drop]
  have ht' : j - delim.length = t.length := by omega
  rw [ht']
  conv => rhs; rw [this]
  rw [List.drop_left]
  exact ⟨_, rfl⟩

section
variable {A : Type} {P : App A} {delim : Bytes}

theorem reader_append (st : St A) (a b : Bytes) : reader P delim st (a ++ b) = reader P delim (reader P delim st a) b :=
  List.foldl_append

theorem reader_stopped {st : St A} (h : st.disconnecting = true) (s : Bytes) : reader P delim st s = st := by
  induction s with
  | nil => rfl
  | cons b s ih => unfold reader at ih ⊢; rw [List.foldl_cons]; simp only [byte, h, if_true]; exact ih

/-- Collecting without finding a delimiter. -/
theorem reader_collect : ∀ (s : Bytes) {st : St A}, st.lineMode = true → st.disconnecting = false →
    (∀ j, j < s.length → ¬ delim <:+ st.buffer ++ s.take (j + 1)) → reader P delim st s = { st with buffer := st.buffer ++ s }
  | [], st, _, _, _ => by simp [reader]
  | b :: s, st, hl, hd, hn => by
    have h0 : ¬ delim <:+ st.buffer ++ [b] := by simpa using hn 0 (by simp)
    have hb : byte P delim st b = { st with buffer := st.buffer ++ [b] } := by
      simp only [byte, hd, hl, Bool.false_eq_true, if_false, if_true]
      rw [if_neg]
      rw [List.isSuffixOf_iff_suffix]; exact h0
    unfold reader
    rw [List.foldl_cons, hb]
    have ih := reader_collect s (st := { st with buffer := st.buffer ++ [b] }) hl hd (by
      intro j hj
      have := hn (j + 1) (by simpa using hj)
      simpa using this)
    unfold reader at ih
    rw [ih]; simp

/-- From an empty buffer: no delimiter, everything is collected. -/
theorem reader_none {st : St A} (hl : st.lineMode = true) (hd : st.disconnecting = false) (hb : st.buffer = []) {s : Bytes}
    (hf : find delim s = none) : reader P delim st s = { st with buffer := s } := by
  rw [reader_collect s hl hd, hb]
  · rfl
  · intro j hj hs
    rw [hb, List.nil_append] at hs
    exact find_none hf (j + 1 - delim.length) (by omega) (suffix_take hj hs)

/-- From an empty buffer: the first line is delivered. -/
theorem reader_some (hne : delim ≠ []) {st : St A} (hl : st.lineMode = true) (hd : st.disconnecting = false) (hb : st.buffer = [])
    {s l r : Bytes} (hf : find delim s = some (l, r)) :
    reader P delim st s = reader P delim { lineReceived P st l with buffer := [] } r := by
  obtain ⟨h1, h2⟩ := find_some hf
  obtain ⟨d, x, hdx⟩ : ∃ d x, delim = d ++ [x] := by
    rcases List.eq_nil_or_concat delim with h | ⟨d, x, h⟩
    · exact absurd h hne
    · exact ⟨d, x, by simpa using h⟩
  have hlen : delim.length = d.length + 1 := by rw [hdx]; simp
  have hcol : reader P delim st (l ++ d) = { st with buffer := l ++ d } := by
    rw [reader_collect (l ++ d) hl hd, hb]
    · rfl
    · intro j hj hs
      rw [hb, List.nil_append] at hs
      have hj' : j + 1 ≤ s.length := by
        have := congrArg List.length h1
        simp at this hj; omega
      have hst : s.take (j + 1) = (l ++ d).take (j + 1) := by
        rw [h1, hdx]
        rw [show l ++ (d ++ [x]) ++ r = (l ++ d) ++ ([x] ++ r) by simp]
        rw [List.take_append_of_le_length (by omega)]
      rw [← hst] at hs
      have hk : delim.length ≤ j + 1 := by
        have := hs.length_le
        simp at this; omega
      exact h2 (j + 1 - delim.length) (by simp at hj; omega) (suffix_take hj' hs)
  have hs : s = (l ++ d) ++ ([x] ++ r) := by rw [h1, hdx]; simp
  rw [hs, reader_append, hcol, reader_append]
  congr 1
  simp only [reader, List.foldl_cons, List.foldl_nil, byte, hd, hl, Bool.false_eq_true, if_false, if_true]
  have : l ++ d ++ [x] = l ++ delim := by rw [hdx]; simp
  rw [this, if_pos (by rw [List.isSuffixOf_iff_suffix]; exact ⟨l, rfl⟩)]
  simp [lineReceived]

/-- The loop reads lines as the reader does. -/
theorem loop_spec (hne : delim ≠ []) : ∀ (n : Nat) (st : St A) (buf : Bytes), buf.length ≤ n → st.disconnecting = false →
    match loop P delim n st buf with
    | (st', none) => st'.disconnecting = true ∧ reader P delim { st with buffer := [] } buf = st'
    | (st', some rest) => st'.disconnecting = false ∧ rest.length ≤ buf.length ∧ (st'.lineMode = true → find delim rest = none) ∧
        reader P delim { st with buffer := [] } buf = reader P delim { st' with buffer := [] } rest
  | 0, st, buf, hn, hd => by
    have : buf = [] := List.length_eq_zero_iff.1 (by omega)
    subst this
    refine ⟨hd, Nat.le_refl _, fun _ => ?_, rfl⟩
    unfold find
    rw [if_neg]
    rw [List.isPrefixOf_iff_prefix, List.prefix_nil]; exact hne
  | n + 1, st, buf, hn, hd => by
    unfold loop
    by_cases hl : st.lineMode = true
    · rw [if_pos hl]
      cases hf : find delim buf with
      | none => exact ⟨hd, Nat.le_refl _, fun _ => hf, rfl⟩
      | some x =>
        obtain ⟨l, rest⟩ := x
        have hr := reader_some (P := P) hne (st := { st with buffer := [] }) hl hd rfl hf
        have hlen : rest.length + delim.length ≤ buf.length := by
          have := congrArg List.length (find_some hf).1
          simp at this; omega
        have hpos : 0 < delim.length := List.length_pos_iff.2 hne
        simp only
        by_cases hlose : (lineReceived P st l).disconnecting = true
        · rw [if_pos hlose]
          refine ⟨hlose, ?_⟩
          rw [hr]
          exact reader_stopped (st := { lineReceived P { st with buffer := [] } l with buffer := [] }) hlose rest
        · rw [if_neg hlose]
          have hlose : (lineReceived P st l).disconnecting = false := by simpa using hlose
          have ih := loop_spec hne n (lineReceived P st l) rest (by omega) hlose
          split at ih
          · rename_i st' he
            exact ⟨ih.1, hr.trans ih.2⟩
          · rename_i st' rest' he
            exact ⟨ih.1, by omega, ih.2.2.1, hr.trans ih.2.2.2⟩
    · rw [if_neg hl]
      exact ⟨hd, Nat.le_refl _, fun h => absurd h hl, rfl⟩

theorem rawData_spec : ∀ (s : Bytes) (st : St A), st.lineMode = false → st.disconnecting = false → st.buffer = [] →
    match rawData P st s with
    | (st', none) => st'.lineMode = false ∧ st'.disconnecting = false ∧ st'.buffer = [] ∧ reader P delim st s = st'
    | (st', some extra) => st'.disconnecting = false ∧ st'.buffer = [] ∧ extra.length < s.length ∧
        reader P delim st s = reader P delim { st' with lineMode := true } extra
  | [], st, hl, hd, hb => ⟨hl, hd, hb, rfl⟩
  | b :: s, st, hl, hd, hb => by
    have hstep : byte P delim st b = { st with lineMode := (P.raw st.app b).2, app := (P.raw st.app b).1, trace := st.trace ++ [.raw b] } := by
      simp [byte, hd, hl]
    unfold rawData
    cases hx : P.raw st.app b with
    | mk a done =>
      rw [hx] at hstep
      simp only at hstep ⊢
      cases done with
      | true =>
        refine ⟨hd, hb, by simp, ?_⟩
        unfold reader
        rw [List.foldl_cons, hstep]
      | false =>
        have hst : ({ st with lineMode := false, app := a, trace := st.trace ++ [.raw b] } : St A) =
            { st with app := a, trace := st.trace ++ [.raw b] } := by rw [← hl]
        rw [hst] at hstep
        have ih := rawData_spec s { st with app := a, trace := st.trace ++ [.raw b] } hl hd hb
        have hr : reader P delim st (b :: s) = reader P delim { st with app := a, trace := st.trace ++ [.raw b] } s := by
          unfold reader; rw [List.foldl_cons, hstep]
        rw [hr]
        simp only [Bool.false_eq_true, if_false]
        split at ih
        · rename_i st' he
          exact ih
        · rename_i st' extra he
          exact ⟨ih.1, ih.2.1, by simp; omega, ih.2.2.2⟩

/-- Between deliveries. -/
structure Ready (delim : Bytes) (st : St A) : Prop where
  up : st.disconnecting = false
  line : st.lineMode = true → find delim st.buffer = none
  raw : st.lineMode = false → st.buffer = []

/-- What is in the buffer might as well arrive again. -/
theorem Ready.reread {st : St A} (h : Ready delim st) : reader P delim { st with buffer := [] } st.buffer = st := by
  by_cases hl : st.lineMode = true
  · rw [reader_none (st := { st with buffer := [] }) hl h.up rfl (h.line hl)]
  · have hb := h.raw (by simpa using hl)
    rw [hb]; unfold reader; rw [List.foldl_nil, ← hb]

theorem dataReceivedGo_spec (hne : delim ≠ []) : ∀ (n : Nat) (st : St A) (data : Bytes), (st.buffer ++ data).length < n → Ready delim st →
    dataReceivedGo P delim n st data = reader P delim st data ∧
      ((reader P delim st data).disconnecting = true ∨ Ready delim (reader P delim st data))
  | 0, _, _, hn, _ => absurd hn (Nat.not_lt_zero _)
  | n + 1, st, data, hn, h => by
    have hre : reader P delim st data = reader P delim { st with buffer := [] } (st.buffer ++ data) := by
      rw [reader_append, h.reread]
    rw [hre]
    unfold dataReceivedGo
    have hl := loop_spec (P := P) hne (st.buffer ++ data).length st (st.buffer ++ data) (Nat.le_refl _) h.up
    simp only
    split at hl
    · rename_i st' he
      rw [he]
      refine ⟨hl.2.symm, .inl ?_⟩
      rw [hl.2]; exact hl.1
    · rename_i st' rest he
      rw [he]
      obtain ⟨h1, h2, h3, h4⟩ := hl
      rw [h4]
      simp only
      by_cases hm : st'.lineMode = true
      · rw [if_pos hm]
        have := reader_none (P := P) (st := { st' with buffer := [] }) hm h1 rfl (h3 hm)
        rw [this]
        refine ⟨rfl, .inr ⟨h1, fun _ => h3 hm, fun h => ?_⟩⟩
        rw [show ({ st' with buffer := rest } : St A).lineMode = st'.lineMode from rfl, hm] at h; cases h
      · rw [if_neg hm]
        have hm : st'.lineMode = false := by simpa using hm
        rw [if_neg (by simp [h1])]
        by_cases hr : rest = []
        · rw [if_pos hr, hr]
          exact ⟨rfl, .inr ⟨h1, fun h => (by rw [show (reader P delim { st' with buffer := [] } []).lineMode = st'.lineMode from rfl, hm] at h; cases h), fun _ => rfl⟩⟩
        · rw [if_neg hr]
          have hraw := rawData_spec (P := P) (delim := delim) rest { st' with buffer := [] } hm h1 rfl
          split at hraw
          · rename_i st'' he2
            rw [he2]
            obtain ⟨r1, r2, r3, r4⟩ := hraw
            rw [r4]
            exact ⟨rfl, .inr ⟨r2, fun h => (by rw [r1] at h; cases h), fun _ => r3⟩⟩
          · rename_i st'' extra he2
            rw [he2]
            obtain ⟨r1, r2, r3, r4⟩ := hraw
            rw [r4]
            simp only
            have hempty : find delim [] = none := by
              unfold find
              rw [if_neg]
              rw [List.isPrefixOf_iff_prefix, List.prefix_nil]; exact hne
            have hready : Ready delim { st'' with lineMode := true } := ⟨r1, fun _ => by simpa [r2] using hempty, fun _ => r2⟩
            by_cases hx : extra = []
            · rw [if_pos hx, hx]
              exact ⟨rfl, .inr hready⟩
            · rw [if_neg hx]
              refine dataReceivedGo_spec hne n _ extra ?_ hready
              simp only [r2, List.nil_append]
              omega

theorem feed_spec (hne : delim ≠ []) : ∀ (chunks : List Bytes) {st : St A}, Ready delim st →
    feed P delim st chunks = reader P delim st chunks.flatten
  | [], _, _ => rfl
  | c :: cs, st, h => by
    obtain ⟨h1, h2⟩ := dataReceivedGo_spec (P := P) hne _ st c (Nat.lt_succ_self _) h
    unfold feed
    rw [List.foldl_cons, h.up, if_neg (by simp), List.flatten_cons, reader_append]
    unfold dataReceived
    rw [h1]
    rcases h2 with h2 | h2
    · rw [reader_stopped h2]
      generalize reader P delim st c = st' at h2
      clear h1 h st
      induction cs with
      | nil => rfl
      | cons c cs ih => rw [List.foldl_cons, if_pos h2]; exact ih
    · exact feed_spec hne cs h2

end

theorem split_find (delim : Bytes) (hne : delim ≠ []) : ∀ (s cur : Bytes), splitGo delim cur 0 s =
    match find delim s with
    | none => [cur ++ s]
    | some (l, r) => (cur ++ l) :: splitGo delim [] 0 r
  | [], cur => by
    unfold find
    rw [if_neg]
    · simp [splitGo]
    · rw [List.isPrefixOf_iff_prefix, List.prefix_nil]; exact hne
  | c :: s, cur => by
    rw [splitGo]
    unfold find
    split
    · rename_i hp
      rw [List.isPrefixOf_iff_prefix] at hp
      obtain ⟨t, ht⟩ := hp
      obtain ⟨x, d, rfl⟩ : ∃ x d, delim = x :: d := by
        cases delim with
        | nil => exact absurd rfl hne
        | cons x d => exact ⟨x, d, rfl⟩
      simp only [List.cons_append, List.cons.injEq] at ht
      obtain ⟨rfl, rfl⟩ := ht
      simp only [List.length_cons, Nat.add_sub_cancel, splitGo_skip, List.append_nil, List.drop_succ_cons, List.drop_left]
    · rw [split_find delim hne s]
      cases find delim s with
      | none => simp
      | some x => simp

end Verif.Liner
