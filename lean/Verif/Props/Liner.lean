import Verif.Lemmas.Liner
/-!
# C84: a line receiver delivers the lines of the stream, however it is cut

For every delimiter, every application and every segmentation, `lineReceived` and `rawDataReceived` are given what a reader that
sees one byte at a time would deliver.
-/
namespace Verif.Liner
open Verif.Py

/-- The receiver is the byte reader, whatever the segmentation, also where it switches between line and raw mode and where it is
disconnected. -/
theorem any_segmentation {A : Type} (P : App A) (delim : Bytes) (hne : delim ≠ []) (a : A) (chunks : List Bytes) :
    feed P delim (St.init a) chunks = reader P delim (St.init a) chunks.flatten := by
  refine feed_spec hne chunks ⟨rfl, fun _ => ?_, fun _ => rfl⟩
  show find delim [] = none
  unfold find
  rw [if_neg]
  rw [List.isPrefixOf_iff_prefix, List.prefix_nil]; exact hne

/-- An application with one header line giving the length of the raw data that follows it. -/
def counted : App Nat where
  line := fun _ l => (l.length, decide (0 < l.length), decide (l = [46]))
  raw := fun n _ => (n - 1, decide (n ≤ 1))

/-- `..\r\nab..\r\nc` and `d`, cut inside the delimiter: two lines and two times two raw bytes. -/
example : (feed counted [13, 10] (St.init 0) [[46, 46, 13], [10, 97, 98, 46], [46, 13, 10, 99], [100]]).trace =
    [.line [46, 46], .raw 97, .raw 98, .line [46, 46], .raw 99, .raw 100] := by decide

/-- The lone dot disconnects; what follows is not read. -/
example : let st := feed counted [13, 10] (St.init 0) [[46, 13], [10, 46, 46, 13, 10], [13, 10]]
    st.trace = [.line [46]] ∧ st.disconnecting = true := by decide

/-- For an application that stays in line mode, the lines and what is left in the buffer are the stream split at the delimiter,
even if the delimiter overlaps itself. -/
theorem lines_are_split {A : Type} (P : App A) (delim : Bytes) (hne : delim ≠ []) (a : A) (chunks : List Bytes)
    (hP : ∀ a l, (P.line a l).2 = (false, false)) :
    let st := feed P delim (St.init a) chunks
    st.trace ++ [.line st.buffer] = (splitSep delim chunks.flatten).map .line := by
  rw [any_segmentation P delim hne]
  have key : ∀ (n : Nat) (s : Bytes) (st : St A), s.length ≤ n → st.lineMode = true → st.disconnecting = false → st.buffer = [] →
      (reader P delim st s).trace ++ [.line (reader P delim st s).buffer] = st.trace ++ (splitSep delim s).map .line := by
    intro n
    induction n with
    | zero =>
      intro s st hn _ _ hb
      have : s = [] := List.length_eq_zero_iff.1 (by omega)
      subst this
      simp [reader, hb, splitSep, splitGo]
    | succ n ih =>
      intro s st hn hl hd hb
      unfold splitSep
      rw [split_find delim hne]
      cases hf : find delim s with
      | none => rw [reader_none hl hd hb hf]; simp
      | some x =>
        obtain ⟨l, r⟩ := x
        have hlen : r.length + delim.length ≤ s.length := by
          have := congrArg List.length (find_some hf).1
          simp at this; omega
        have hpos : 0 < delim.length := List.length_pos_iff.2 hne
        rw [reader_some hne hl hd hb hf, ih r _ (by omega)]
        · simp [lineReceived, splitSep]
        · simp [lineReceived, hP]
        · simp [lineReceived, hP]
        · rfl
  simpa [St.init] using key _ chunks.flatten (St.init a) (Nat.le_refl _) rfl rfl rfl

/-- An application that only listens. -/
def quiet : App Unit := ⟨fun _ _ => ((), false, false), fun _ _ => ((), false)⟩

/-- `aba` overlaps itself. -/
example : (feed quiet [97, 98, 97] (St.init ()) [[97, 98], [97, 98, 97, 99], [97], [98], [97, 100]]).trace =
    [.line [], .line [98, 97, 99]] ∧
    (feed quiet [97, 98, 97] (St.init ()) [[97, 98], [97, 98, 97, 99], [97], [98], [97, 100]]).buffer = [100] := by decide

/-- Beside the property, there is no limit: whatever `MAX_LINE_LENGTH` is, a line may be longer than it, in the buffer and when delivered. -/
theorem max_line_length_fails (maxLineLength : Nat) :
    ∃ chunks, let st := feed quiet [13, 10] (St.init ()) chunks
      maxLineLength < st.buffer.length ∧ ∃ l, .line l ∈ st.trace ∧ maxLineLength < l.length := by
  refine ⟨[List.replicate (maxLineLength + 1) 97 ++ [13, 10] ++ List.replicate (maxLineLength + 1) 97], ?_⟩
  have hno : ∀ n, find [13, 10] (List.replicate n 97) = none := by
    intro n
    induction n with
    | zero => rfl
    | succ n ih =>
      rw [List.replicate_succ, find, ih]
      rw [if_neg (by simp [List.isPrefixOf])]; rfl
  have hfind : ∀ n r, find [13, 10] (List.replicate n 97 ++ [13, 10] ++ r) = some (List.replicate n 97, r) := by
    intro n r
    induction n with
    | zero => simp [find, List.isPrefixOf]
    | succ n ih =>
      rw [List.replicate_succ, List.cons_append, List.cons_append, find, ih]
      rw [if_neg (by simp [List.isPrefixOf])]; rfl
  rw [any_segmentation quiet _ (by simp)]
  simp only [List.flatten_cons, List.flatten_nil, List.append_nil]
  rw [reader_some (by simp) rfl rfl rfl (hfind _ _), reader_none rfl rfl rfl (hno _)]
  simp [lineReceived, quiet]

end Verif.Liner
