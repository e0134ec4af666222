import Verif.Model.Asplode
/-!
# C66: `splode` writes each line to the file announced before it
-/
namespace Verif.Asplode
open Verif.Py

/-- The line announces the file `name`: after the first marker, up to the second one or the end, there is `name`, perhaps
with white space around it. -/
def Announces (line name : Str) : Prop :=
  ∃ before p q rest, line = joinSep marker (before :: (p ++ name ++ q) :: rest) ∧
    (∀ x ∈ before :: (p ++ name ++ q) :: rest, ¬ marker <:+: x) ∧
    (∀ c ∈ p, isByteSpace c = true) ∧ (∀ c ∈ q, isByteSpace c = true) ∧
    (∀ c, name.head? = some c → isByteSpace c = false) ∧ (∀ c, name.getLast? = some c → isByteSpace c = false)

/-- The line has no marker. -/
def Plain (line : Str) : Prop := ¬ marker <:+: line

theorem fileName_announces {line name : Str} (h : Announces line name) : fileName line = some name := by
  obtain ⟨before, p, q, rest, rfl, hx, hp, hq, h1, h2⟩ := h
  unfold fileName
  rw [splitSep_joinSep marker (by decide) (by decide) _ (by simp) hx]
  simp only
  rw [stripBy_pad isByteSpace p name q hp hq h1 h2]

theorem fileName_plain {line : Str} (h : Plain line) : fileName line = none := by
  have := splitSep_joinSep marker (by decide) (by decide) [line] (by simp) (by intro x hx; rw [List.mem_singleton] at hx; subst hx; exact h)
  unfold fileName
  rw [show joinSep marker [line] = line from rfl] at this
  rw [this]

/-- A part of a template: the line with the marker, the name announced in it, and the lines that follow. -/
structure Part where
  line : Str
  name : Str
  body : List Str

/-- The part is one of a template that is filled in with `e`. -/
def Part.Ok (e : Env) (s : Part) : Prop := Announces (subst e s.line) s.name ∧ ∀ l ∈ s.body, Plain (subst e l)

/-- The lines of a part. -/
def Part.lines (s : Part) : List Str := s.line :: s.body

/-- The text that belongs in the file. -/
def Part.text (e : Env) (s : Part) : Str := (s.body.map (subst e)).flatten

theorem set_set (d : Dict Str Str) (k : Str) (a b : Str) : (d.set k a).set k b = d.set k b := by
  induction d with
  | nil => simp [Dict.set]
  | cons x d ih =>
    obtain ⟨k', v⟩ := x
    by_cases h : k' = k
    · simp [Dict.set, h]
    · simp [Dict.set, h, ih]

theorem loop_body (e : Env) (s : State) (c t : Str) (body rest : List Str) (hc : s.current = some c)
    (ht : s.files = s.files.set c t) (hp : ∀ l ∈ body, Plain (subst e l)) :
    loop e s (body ++ rest) = loop e { s with files := s.files.set c (t ++ (body.map (subst e)).flatten) } rest := by
  induction body generalizing s t with
  | nil =>
    simp only [List.nil_append, List.map_nil, List.flatten_nil, List.append_nil]
    rw [← ht]
  | cons l body ih =>
    have hg : s.files.get? c = some t := by rw [ht]; exact Dict.get?_set_same _ _ _
    rw [List.cons_append, loop]
    have hs : step e s l = ({ s with files := s.files.set c (t ++ subst e l) }, none) := by
      unfold step
      rw [fileName_plain (hp l (by simp))]
      simp only [hc, hg, Option.getD_some]
    rw [hs]
    simp only
    rw [ih { s with files := s.files.set c (t ++ subst e l) } (t ++ subst e l) hc (by rw [set_set]) fun x hx => hp x (List.mem_cons_of_mem _ hx)]
    simp only [set_set, List.map_cons, List.flatten_cons, List.append_assoc]

/-- The files after the parts have been written. -/
def written (e : Env) (files : Dict Str Str) (ps : List Part) : Dict Str Str :=
  ps.foldl (fun fs s => fs.set s.name (s.text e)) files

theorem written_get (e : Env) (files : Dict Str Str) (ps : List Part) (k : Str) :
    (written e files ps).get? k =
      match ps.reverse.find? (fun s => decide (s.name = k)) with
      | some s => some (s.text e)
      | none => files.get? k := by
  induction ps generalizing files with
  | nil => rfl
  | cons s ps ih =>
    rw [written, List.foldl_cons]
    change (written e (files.set s.name (s.text e)) ps).get? k = _
    rw [ih, List.reverse_cons, List.find?_append]
    cases ps.reverse.find? (fun s => decide (s.name = k)) with
    | some t => rfl
    | none =>
      simp only [Option.none_or]
      by_cases h : s.name = k
      · subst h; simp [Dict.get?_set_same]
      · simp [h, Dict.get?_set_other _ _ _ _ h]

theorem loop_parts (e : Env) (hpy : e.python2 = true) (ps : List Part) (s : State) (rest : List Str)
    (hok : ∀ p ∈ ps, p.Ok e) (hopen : ∀ p ∈ ps, ∀ fs, e.canOpen fs p.name = true) :
    loop e s ((ps.map Part.lines).flatten ++ rest) =
      loop e ⟨written e s.files ps, ((ps.getLast?.map Part.name).or s.current), s.created ++ ps.map Part.name⟩ rest := by
  induction ps generalizing s with
  | nil => simp [written]
  | cons p ps ih =>
    obtain ⟨h1, h2⟩ := hok p (by simp)
    rw [List.map_cons, List.flatten_cons, List.append_assoc, Part.lines, List.cons_append, loop]
    have hs : step e s p.line = (⟨s.files.set p.name [], some p.name, s.created ++ [p.name]⟩, none) := by
      unfold step
      rw [fileName_announces h1]
      simp [hpy, hopen p (by simp)]
    rw [hs]
    simp only
    rw [loop_body e _ p.name [] p.body _ rfl (by rw [set_set]) h2]
    rw [ih _ (fun x hx => hok x (List.mem_cons_of_mem _ hx)) (fun x hx => hopen x (List.mem_cons_of_mem _ hx))]
    congr 1
    simp only [set_set, List.nil_append, State.mk.injEq]
    refine ⟨rfl, ?_, by simp⟩
    cases ps with
    | nil => simp
    | cons q ps =>
      rw [List.getLast?_cons_cons]
      cases hl : (q :: ps).getLast? with
      | none => simp at hl
      | some x => rfl

/-- **C66**, on Python 2: a template that consists of parts is written part by part.  The files reported are the announced
ones in order; each holds exactly the lines after its marker, up to the next one, filled in (if a name is announced more
than once, the last time counts); other files are as before.

Missing: on Python 3 there is no `file` and nothing is written (`splode_python3_fails`); templates that begin with other
lines are refused (`splode_headless_fails`). -/
theorem splode_partial (e : Env) (hpy : e.python2 = true) (files : Dict Str Str) (ps : List Part) (hne : ps ≠ [])
    (hok : ∀ p ∈ ps, p.Ok e) (hopen : ∀ p ∈ ps, ∀ fs, e.canOpen fs p.name = true) :
    ∃ r, splode e files (ps.map Part.lines).flatten = (r, none) ∧ r.current = none ∧ r.created = ps.map Part.name ∧
      ∀ k, r.files.get? k =
        match ps.reverse.find? (fun s => decide (s.name = k)) with
        | some s => some (s.text e)
        | none => files.get? k := by
  have h := loop_parts e hpy ps ⟨files, none, []⟩ [] hok hopen
  rw [List.append_nil] at h
  unfold splode
  rw [h, loop]
  cases hl : ps.getLast? with
  | none => simp at hl; exact absurd hl hne
  | some x => exact ⟨_, rfl, rfl, by simp, fun k => written_get e files ps k⟩

/-- A file that cannot be opened ends the matter; the parts before it have been written. -/
theorem splode_refused (e : Env) (hpy : e.python2 = true) (files : Dict Str Str) (ps : List Part) (p : Part) (rest : List Str)
    (hok : ∀ x ∈ ps, x.Ok e) (hp : p.Ok e) (hopen : ∀ x ∈ ps, ∀ fs, e.canOpen fs x.name = true)
    (hno : ∀ fs, e.canOpen fs p.name = false) :
    ∃ r, splode e files ((ps.map Part.lines).flatten ++ (p.lines ++ rest)) = (r, some (.other "IOError")) ∧
      r.created = ps.map Part.name ∧
      ∀ k, r.files.get? k =
        match ps.reverse.find? (fun s => decide (s.name = k)) with
        | some s => some (s.text e)
        | none => files.get? k := by
  unfold splode
  rw [loop_parts e hpy ps ⟨files, none, []⟩ _ hok hopen, Part.lines, List.cons_append, loop]
  have hs : ∀ s, step e s p.line = (s, some (.other "IOError")) := by
    intro s
    unfold step
    rw [fileName_announces hp.1]
    simp only [hpy, hno, Bool.not_true, Bool.false_eq_true, if_false]
  rw [hs]
  exact ⟨_, rfl, by simp, fun k => written_get e files ps k⟩

/-- On Python 3 the first marker raises `NameError` and nothing is written. -/
theorem splode_python3_fails (e : Env) (hpy : e.python2 = false) (files : Dict Str Str) (p : Part) (rest : List Str)
    (hp : p.Ok e) : splode e files (p.lines ++ rest) = (⟨files, none, []⟩, some (.other "NameError")) := by
  unfold splode
  rw [Part.lines, List.cons_append, loop]
  unfold step
  rw [fileName_announces hp.1]
  simp [hpy]

/-- A template that does not begin with a marker, or is empty, raises `AttributeError` and nothing is written. -/
theorem splode_headless_fails (e : Env) (files : Dict Str Str) (lines : List Str)
    (h : ∀ l, lines.head? = some l → Plain (subst e l)) :
    splode e files lines = (⟨files, none, []⟩, some .attributeError) := by
  unfold splode
  cases lines with
  | nil => rfl
  | cons l ls =>
    rw [loop]
    unfold step
    rw [fileName_plain (h l rfl)]

/-! ## Every template is of one of these forms -/

theorem strip_shape (s : Str) : ∃ p n q : Str, s = p ++ n ++ q ∧ (∀ c ∈ p, isByteSpace c = true) ∧
    (∀ c ∈ q, isByteSpace c = true) ∧ (∀ c, n.head? = some c → isByteSpace c = false) ∧
    (∀ c, n.getLast? = some c → isByteSpace c = false) := by
  have hd : ∀ (s : Str) c, (s.dropWhile isByteSpace).head? = some c → isByteSpace c = false := by
    intro s c hc
    have := List.head?_dropWhile_not isByteSpace s
    rw [hc] at this
    simpa using this
  have ht : ∀ (s : Str), ∀ c ∈ s.takeWhile isByteSpace, isByteSpace c = true := fun s c hc =>
    List.all_eq_true.mp (List.all_takeWhile (p := isByteSpace) (l := s)) c hc
  let m := s.dropWhile isByteSpace
  refine ⟨s.takeWhile isByteSpace, (m.reverse.dropWhile isByteSpace).reverse, (m.reverse.takeWhile isByteSpace).reverse,
    ?_, ht s, ?_, ?_, ?_⟩
  · rw [List.append_assoc, ← List.reverse_append, List.takeWhile_append_dropWhile, List.reverse_reverse,
      List.takeWhile_append_dropWhile]
  · intro c hc
    exact ht _ c (List.mem_reverse.mp hc)
  · intro c hc
    rw [List.head?_reverse] at hc
    by_cases hq : m.reverse.dropWhile isByteSpace = []
    · rw [hq] at hc; cases hc
    · have hm : m.head? = some c := by
        have h2 : m.reverse = m.reverse.takeWhile isByteSpace ++ m.reverse.dropWhile isByteSpace :=
          List.takeWhile_append_dropWhile.symm
        rw [← List.getLast?_reverse, h2, List.getLast?_append_of_ne_nil _ hq]
        exact hc
      exact hd s c hm
  · intro c hc
    rw [List.getLast?_reverse] at hc
    exact hd _ c hc

/-- Every line either has no marker or announces a name. -/
theorem line_cases (line : Str) : Plain line ∨ ∃ name, Announces line name := by
  have h1 := joinSep_splitSep marker (by decide) line
  have h2 := splitSep_parts marker (by decide) line
  match hs : splitSep marker line with
  | [] => exact absurd hs (splitSep_ne_nil marker (by decide) line)
  | [x] =>
    left
    rw [hs] at h1 h2
    have : x = line := h1
    subst this
    exact h2 _ (by simp)
  | before :: y :: rest =>
    right
    rw [hs] at h1 h2
    obtain ⟨p, n, q, rfl, hp, hq, h3, h4⟩ := strip_shape y
    exact ⟨n, before, p, q, rest, h1.symm, h2, hp, hq, h3, h4⟩

/-- Every template is some lines without a marker, followed by parts. -/
theorem template_shape (e : Env) (lines : List Str) :
    ∃ (first : List Str) (ps : List Part), lines = first ++ (ps.map Part.lines).flatten ∧
      (∀ l ∈ first, Plain (subst e l)) ∧ ∀ p ∈ ps, p.Ok e := by
  induction lines with
  | nil => exact ⟨[], [], rfl, by simp, by simp⟩
  | cons l lines ih =>
    obtain ⟨first, ps, rfl, h1, h2⟩ := ih
    rcases line_cases (subst e l) with h | ⟨n, h⟩
    · refine ⟨l :: first, ps, rfl, ?_, h2⟩
      intro x hx
      rcases List.mem_cons.mp hx with rfl | hx
      exacts [h, h1 x hx]
    · refine ⟨[], ⟨l, n, first⟩ :: ps, by simp [Part.lines], by simp, ?_⟩
      intro x hx
      rcases List.mem_cons.mp hx with rfl | hx
      exacts [⟨h, h1⟩, h2 x hx]

/-! ## What is filled in -/

theorem not_infix_of_not_mem {c : Nat} {w s : Str} (hw : c ∈ w) (hs : c ∉ s) : ¬ w <:+: s := fun h => hs (h.subset hw)

theorem replace_none {w : Str} (hw : 95 ∈ w) (new s : Str) (hs : 95 ∉ s) : strReplace w new s = s :=
  strReplace_absent w new s (not_infix_of_not_mem hw hs)

/-- A line without underscores is not changed. -/
theorem subst_plain (e : Env) (s : Str) (h : 95 ∉ s) : subst e s = s := by
  unfold subst
  rw [replace_none (by decide) _ s h, replace_none (by decide) _ s h, replace_none (by decide) _ s h]

theorem replace_one (w new a b : Str) (ha : 95 ∉ a) (hb : 95 ∉ b) :
    strReplace (95 :: w) new (a ++ (95 :: w) ++ b) = a ++ new ++ b := by
  rw [List.append_assoc, strReplace_keep 95 w new a _ ha, strReplace_match _ _ _ (by simp), replace_none (by simp) _ b hb]
  simp

/-- `_x_`, with no underscore inside, is not touched by a search for another such word. -/
theorem replace_other (w v new a b : Str) (hw : 95 ∉ w) (hv : 95 ∉ v) (hne : w ≠ v) (ha : 95 ∉ a) (hb : 95 ∉ b) :
    strReplace (95 :: w ++ [95]) new (a ++ (95 :: v ++ [95]) ++ b) = a ++ (95 :: v ++ [95]) ++ b := by
  apply strReplace_absent
  rintro ⟨x, y, h⟩
  have hsp : splitSep [95] (x ++ (95 :: w ++ [95]) ++ y) = splitSep [95] (a ++ (95 :: v ++ [95]) ++ b) := by rw [h]
  have hun : Unbordered ([95] : Str) := by decide
  have hp : ∀ p cur rest : Str, 95 ∉ p → splitGo [95] cur 0 (p ++ 95 :: rest) = (cur ++ p) :: splitGo [95] [] 0 rest := by
    intro p cur rest hp
    have := splitGo_part [95] (by simp) hun cur p rest fun hi => hp (hi.subset (by simp))
    rwa [List.append_assoc, List.singleton_append] at this
  have hlast : splitGo [95] [] 0 b = [b] := splitGo_last [95] [] b fun hi => hb (hi.subset (by simp))
  have hr : splitSep [95] (a ++ (95 :: v ++ [95]) ++ b) = [a, v, b] := by
    rw [show a ++ (95 :: v ++ [95]) ++ b = a ++ 95 :: (v ++ 95 :: b) by simp, splitSep, hp a [] _ ha, hp v [] b hv, hlast]
    rfl
  -- the part before the first word on the left
  have key : ∀ (x cur : Str) (y : Str), ∃ l : List Str, ∃ m : Str, ∃ r : List Str,
      splitGo [95] cur 0 (x ++ (95 :: w ++ [95]) ++ y) = l ++ m :: w :: r ∧ r ≠ [] := by
    intro x
    induction x with
    | nil =>
      intro cur y
      refine ⟨[], cur, splitGo [95] [] 0 y, ?_, fun e => splitSep_ne_nil [95] (by simp) y e⟩
      have h1 := hp [] cur (w ++ 95 :: y) (by simp)
      have h2 := hp w [] y hw
      rw [show ([] : Str) ++ (95 :: w ++ [95]) ++ y = [] ++ 95 :: (w ++ 95 :: y) by simp, h1, h2]
      simp
    | cons c x ih =>
      intro cur y
      rw [List.cons_append, List.cons_append, splitGo]
      by_cases hc : c = 95
      · subst hc
        rw [if_pos (by simp [List.isPrefixOf])]
        obtain ⟨l, m, r, h1, h2⟩ := ih [] y
        exact ⟨cur :: l, m, r, by rw [show [95].length - 1 = 0 from rfl, h1]; rfl, h2⟩
      · rw [if_neg (by simp [List.isPrefixOf, Ne.symm hc])]
        exact ih _ y
  obtain ⟨l, m, r, h1, h2⟩ := key x [] y
  rw [splitSep, h1, hr] at hsp
  match l, r with
  | [], [] => exact h2 rfl
  | [], _ :: _ =>
    simp only [List.nil_append, List.cons.injEq] at hsp
    exact hne hsp.2.1
  | _ :: l, r =>
    have := congrArg List.length hsp
    have hr0 : 0 < r.length := List.length_pos_iff.mpr h2
    simp only [List.cons_append, List.length_cons, List.length_append, List.length_nil] at this
    omega

/-- In a line with one placeholder and no other underscores, that placeholder is replaced by what it stands for. -/
theorem subst_one (e : Env) (hp : 95 ∉ e.proj) (hc : 95 ∉ e.capproj) (a b : Str) (ha : 95 ∉ a) (hb : 95 ∉ b) :
    subst e (a ++ sProject ++ b) = a ++ e.proj ++ b ∧
    subst e (a ++ sCapProject ++ b) = a ++ e.capproj ++ b ∧
    subst e (a ++ sDate ++ b) = a ++ e.today ++ b := by
  have nodash : ∀ v : Str, 95 ∉ v → 95 ∉ a ++ v ++ b := by
    intro v hv; simp [ha, hv, hb]
  refine ⟨?_, ?_, ?_⟩
  · unfold subst
    rw [show strReplace sProject e.proj (a ++ sProject ++ b) = a ++ e.proj ++ b from replace_one _ _ a b ha hb,
      replace_none (by decide) _ _ (nodash _ hp), replace_none (by decide) _ _ (nodash _ hp)]
  · unfold subst
    rw [show strReplace sProject e.proj (a ++ sCapProject ++ b) = a ++ sCapProject ++ b from
        replace_other [112, 114, 111, 106, 101, 99, 116] [80, 114, 111, 106, 101, 99, 116] _ a b (by decide) (by decide)
          (by decide) ha hb,
      show strReplace sCapProject e.capproj (a ++ sCapProject ++ b) = a ++ e.capproj ++ b from replace_one _ _ a b ha hb,
      replace_none (by decide) _ _ (nodash _ hc)]
  · unfold subst
    rw [show strReplace sProject e.proj (a ++ sDate ++ b) = a ++ sDate ++ b from
        replace_other [112, 114, 111, 106, 101, 99, 116] [100, 97, 116, 101] _ a b (by decide) (by decide)
          (by decide) ha hb,
      show strReplace sCapProject e.capproj (a ++ sDate ++ b) = a ++ sDate ++ b from
        replace_other [80, 114, 111, 106, 101, 99, 116] [100, 97, 116, 101] _ a b (by decide) (by decide)
          (by decide) ha hb,
      show strReplace sDate e.today (a ++ sDate ++ b) = a ++ e.today ++ b from replace_one _ _ a b ha hb]

/-- `zoop`, `Zoop`, any date, everything can be opened. -/
def demo : Env := ⟨[122, 111, 111, 112], [90, 111, 111, 112], [50, 48], true, fun _ _ => true⟩

/-- `x###file: _project_\n`, `hi _date_\n`, `###file:b\n`: two files, `zoop` and the empty `b`. -/
example : splode demo [] [[120] ++ marker ++ [32] ++ sProject ++ [10], [104, 105, 32] ++ sDate ++ [10], marker ++ [98, 10]] =
    (⟨[([122, 111, 111, 112], [104, 105, 32, 50, 48, 10]), ([98], [])], none, [[122, 111, 111, 112], [98]]⟩, none) := rfl

example : Announces (subst demo ([120] ++ marker ++ [32] ++ sProject ++ [10])) [122, 111, 111, 112] :=
  ⟨[120], [32], [10], [], by decide, by decide, by decide, by decide, by decide, by decide⟩

/-! ## The program -/

/-- A line with its end. -/
def IsLine (l : Str) : Prop := ∃ a, l = a ++ [10] ∧ 10 ∉ a

theorem readlines_line (a rest : Str) (h : 10 ∉ a) : readlines (a ++ 10 :: rest) = (a ++ [10]) :: readlines rest := by
  induction a with
  | nil => simp [readlines]
  | cons c a ih =>
    simp only [List.mem_cons, not_or] at h
    rw [List.cons_append, readlines, if_neg (Ne.symm h.1), ih h.2]
    rfl

theorem readlines_lines (ls : List Str) (h : ∀ l ∈ ls, IsLine l) : readlines ls.flatten = ls := by
  induction ls with
  | nil => rfl
  | cons l ls ih =>
    obtain ⟨a, rfl, ha⟩ := h l (by simp)
    rw [List.flatten_cons, List.append_assoc, List.singleton_append, readlines_line _ _ ha, ih fun x hx => h x (by simp [hx])]

/-- Whatever the text is, its lines make it up. -/
theorem readlines_flatten (s : Str) : (readlines s).flatten = s := by
  induction s with
  | nil => rfl
  | cons c s ih =>
    rw [readlines]
    split
    · next h => rw [List.flatten_cons, ih, h]; rfl
    · split
      · next h => rw [h] at ih; simp only [List.flatten_nil] at ih; subst ih; rfl
      · next l ls h => rw [h] at ih; rw [← ih]; rfl

/-- **C66** for the program: a text on the standard input that consists of parts is written as `zoop`, whatever the arguments, and the
names are reported on the standard error, a line each: `Created: ` and the name. -/
theorem main_partial (today : Str) (canOpen : Dict Str Str → Str → Bool) (files : Dict Str Str) (ps : List Part) (hne : ps ≠ [])
    (hline : ∀ p ∈ ps, ∀ l ∈ p.lines, IsLine l)
    (hok : ∀ p ∈ ps, p.Ok ⟨[122, 111, 111, 112], [90, 111, 111, 112], today, true, canOpen⟩)
    (hopen : ∀ p ∈ ps, ∀ fs, canOpen fs p.name = true) :
    let r := main today true canOpen files (ps.map Part.lines).flatten.flatten
    r.raised = none ∧
    r.stderr = (ps.map fun p => [67, 114, 101, 97, 116, 101, 100, 58, 32] ++ p.name ++ [10]).flatten ∧
    ∀ k, r.files.get? k =
      match ps.reverse.find? (fun s => decide (s.name = k)) with
      | some s => some (s.text ⟨[122, 111, 111, 112], [90, 111, 111, 112], today, true, canOpen⟩)
      | none => files.get? k := by
  intro r
  obtain ⟨st, h1, -, h3, h4⟩ := splode_partial ⟨[122, 111, 111, 112], [90, 111, 111, 112], today, true, canOpen⟩ rfl files ps hne hok hopen
  have hr : readlines (ps.map Part.lines).flatten.flatten = (ps.map Part.lines).flatten := by
    refine readlines_lines _ fun l hl => ?_
    obtain ⟨x, hx, hl⟩ := List.mem_flatten.1 hl
    obtain ⟨p, hp, rfl⟩ := List.mem_map.1 hx
    exact hline p hp l hl
  have e : r = ⟨st.files, (st.created.map fun n => status (sCreated ++ n)).flatten, none⟩ := by
    show main _ _ _ _ _ = _
    unfold main
    rw [hr, h1]
  rw [e]
  refine ⟨rfl, ?_, h4⟩
  show (st.created.map fun n => status (sCreated ++ n)).flatten = _
  rw [h3, List.map_map]
  rfl

/-- `###file:a\n_Project_\n`: the file `a` with `Zoop`, and `Created: a` on the standard error. -/
example :
    let r := main [50, 48] true (fun _ _ => true) [] (marker ++ [97, 10] ++ sCapProject ++ [10])
    r.files = [([97], [90, 111, 111, 112, 10])] ∧ r.stderr = [67, 114, 101, 97, 116, 101, 100, 58, 32, 97, 10] ∧ r.raised = none := by
  decide +kernel

end Verif.Asplode
