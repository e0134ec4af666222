import Verif.Model.StructlikeText
import Verif.Props.Structlike
/-!
# C134 — the text given to `record`
-/
namespace Verif.StructlikeText
open Verif.Py Verif.Structlike

/-- White space of `str`, as `str.split()` sees it (CPython 3.11), one by one. -/
def spaces : List Nat :=
  [9, 10, 11, 12, 13, 28, 29, 30, 31, 32, 133, 160, 5760, 8192, 8193, 8194, 8195, 8196, 8197, 8198, 8199, 8200, 8201, 8202, 8232,
    8233, 8239, 8287, 12288]

theorem isSpace_iff (c : Nat) : Verif.Extime.isSpace c = true ↔ c ∈ spaces := by
  unfold Verif.Extime.isSpace spaces
  simp only [Bool.or_eq_true, Bool.and_eq_true, decide_eq_true_eq, beq_iff_eq, List.mem_cons, List.not_mem_nil, or_false]
  omega

/-- A text in which the words `ws` are written one after the other: white space, a word, white space, …; words are apart. -/
inductive Spells : List Name → List Nat → Prop
  | blank (p : List Nat) (hp : ∀ c ∈ p, c ∈ spaces) : Spells [] p
  | last (p w : List Nat) (hp : ∀ c ∈ p, c ∈ spaces) (hw : w ≠ []) (h : ∀ c ∈ w, c ∉ spaces) : Spells [w] (p ++ w)
  | more (p w : List Nat) (c : Nat) (hp : ∀ c ∈ p, c ∈ spaces) (hw : w ≠ []) (h : ∀ c ∈ w, c ∉ spaces) (hc : c ∈ spaces)
      {ws : List Name} {s : List Nat} (hs : Spells ws s) : Spells (w :: ws) (p ++ (w ++ c :: s))

theorem not_space {c : Nat} (h : c ∉ spaces) : Verif.Extime.isSpace c = false := by
  rw [← isSpace_iff] at h; simpa using h

theorem split_of_spells {ws : List Name} {s : List Nat} (h : Spells ws s) : split s = ws := by
  induction h with
  | blank p hp =>
    have := words_pad Verif.Extime.isSpace p [] fun c hc => (isSpace_iff c).mpr (hp c hc)
    rw [List.append_nil] at this
    rw [split, this]; rfl
  | last p w hp hw h =>
    rw [split, words_pad _ p w fun c hc => (isSpace_iff c).mpr (hp c hc)]
    exact words_last _ w (fun c hc => not_space (h c hc)) hw
  | more p w c hp hw h hc hs ih =>
    rw [split, words_pad _ p _ fun c hc => (isSpace_iff c).mpr (hp c hc)]
    rw [← ih, split]
    exact words_cons _ w [c] _ (fun c hc => not_space (h c hc)) hw (by simpa using (isSpace_iff c).mpr hc) (by simp)

theorem spells_cons_space {ws : List Name} {s : List Nat} {c : Nat} (hc : c ∈ spaces) (h : Spells ws s) : Spells ws (c :: s) := by
  have aux : ∀ p : List Nat, (∀ x ∈ p, x ∈ spaces) → ∀ x ∈ c :: p, x ∈ spaces := by
    intro p hp x hx
    rcases List.mem_cons.mp hx with rfl | hx
    · exact hc
    · exact hp x hx
  cases h with
  | blank _ hp => exact .blank _ (aux _ hp)
  | last p w hp hw h => exact .last (c :: p) w (aux p hp) hw h
  | more p w d hp hw h hd hs => exact .more (c :: p) w d (aux p hp) hw h hd hs

theorem spells_go (s cur : List Nat) (hc : ∀ c ∈ cur, c ∉ spaces) : Spells (wordsGo Verif.Extime.isSpace cur s) (cur ++ s) := by
  induction s generalizing cur with
  | nil =>
    rw [wordsGo, List.append_nil]
    split
    · rename_i h; subst h; exact .blank [] (by simp)
    · rename_i h; exact .last [] cur (by simp) h hc
  | cons c s ih =>
    rw [wordsGo]
    by_cases hs : Verif.Extime.isSpace c = true
    · rw [if_pos hs]
      have hm := (isSpace_iff c).mp hs
      split
      · rename_i h; subst h
        exact spells_cons_space hm (ih [] (by simp))
      · rename_i h
        exact .more [] cur c (by simp) h hc hm (ih [] (by simp))
    · rw [if_neg hs]
      have := ih (cur ++ [c]) (by
        intro x hx
        rcases List.mem_append.mp hx with hx | hx
        · exact hc x hx
        · rw [List.mem_singleton] at hx; subst hx; rwa [isSpace_iff] at hs)
      simpa using this

/-- **C134.**  Every text spells one list of words, and `split()` finds it. -/
theorem split_iff (s : List Nat) (ws : List Name) : split s = ws ↔ Spells ws s := by
  refine ⟨?_, split_of_spells⟩
  rintro rfl
  exact spells_go s [] (by simp)

/-- The words in one line, with single spaces. -/
def oneLine : List Name → List Nat
  | [] => []
  | [w] => w
  | w :: v :: ws => w ++ 32 :: oneLine (v :: ws)

theorem oneLine_join (ws : List Name) : joinSep [32] ws = oneLine ws := by
  induction ws with
  | nil => rfl
  | cons w ws ih =>
    cases ws with
    | nil => rfl
    | cons v vs => rw [joinSep, ih, oneLine]; simp

/-- What Python requires of the name of a class. -/
def Nameable (ws : List Name) : Prop := ∀ w ∈ ws, ∀ c ∈ w, c ≠ 0 ∧ ¬ (0xd800 ≤ c ∧ c ≤ 0xdfff)

theorem mem_oneLine {c : Nat} {ws : List Name} (h : c ∈ oneLine ws) : c = 32 ∨ ∃ w ∈ ws, c ∈ w := by
  induction ws with
  | nil => cases h
  | cons w ws ih =>
    cases ws with
    | nil => exact Or.inr ⟨w, by simp, h⟩
    | cons v vs =>
      rw [oneLine] at h
      rcases List.mem_append.mp h with h | h
      · exact Or.inr ⟨w, by simp, h⟩
      · rcases List.mem_cons.mp h with h | h
        · exact Or.inl h
        · rcases ih h with h | ⟨x, hx, hc⟩
          · exact Or.inl h
          · exact Or.inr ⟨x, List.mem_cons_of_mem _ hx, hc⟩

theorem oneLine_mem {c : Nat} {ws : List Name} {w : Name} (hw : w ∈ ws) (hc : c ∈ w) : c ∈ oneLine ws := by
  induction ws with
  | nil => cases hw
  | cons v vs ih =>
    cases vs with
    | nil => rw [List.mem_singleton] at hw; subst hw; exact hc
    | cons x xs =>
      rw [oneLine]
      rcases List.mem_cons.mp hw with rfl | hw
      · exact List.mem_append_left _ hc
      · exact List.mem_append_right _ (List.mem_cons_of_mem _ (ih hw))

theorem typeName_iff (ws : List Name) : typeName (className ws) = .ok () ↔ Nameable ws := by
  have hmem : ∀ c, c ∈ className ws ↔ c ∈ [82, 101, 99, 111, 114, 100, 60] ∨ c ∈ oneLine ws ∨ c = 62 := by
    intro c; rw [className, oneLine_join]; simp [or_assoc]
  unfold typeName
  constructor
  · intro h w hw c hc
    have hcm := (hmem c).mpr (Or.inr (Or.inl (oneLine_mem hw hc)))
    split at h
    · cases h
    · rename_i h1
      split at h
      · cases h
      · rename_i h2
        refine ⟨?_, fun hs => h1 ?_⟩
        · rintro rfl; exact h2 (List.contains_iff_mem.mpr hcm)
        · exact List.any_eq_true.mpr ⟨c, hcm, by simp [hs.1, hs.2]⟩
  · intro h
    have key : ∀ c ∈ className ws, c ≠ 0 ∧ ¬ (0xd800 ≤ c ∧ c ≤ 0xdfff) := by
      intro c hc
      rcases (hmem c).mp hc with hc | hc | hc
      · simp only [List.mem_cons, List.not_mem_nil, or_false] at hc
        omega
      · rcases mem_oneLine hc with hc | ⟨w, hw, hc⟩
        · omega
        · exact h w hw c hc
      · omega
    rw [if_neg, if_neg]
    · rw [List.contains_iff_mem]; intro h0; exact (key 0 h0).1 rfl
    · rw [List.any_eq_true]; rintro ⟨c, hc, h2⟩
      simp only [Bool.and_eq_true, decide_eq_true_eq] at h2
      exact (key c hc).2 h2

/-- **C134.**  `record(text, **kw)` makes a class exactly if the words of the text can be divided into some without default
followed by those with one, every default belonging to a word, and no word has a NUL or a lone surrogate.  The class is called
`Record<…>` after the words, its attributes are the words in order, and its defaults those of the last words. -/
theorem record_text {V : Type} {ws : List Name} {s : List Nat} (hs : Spells ws s) (kw : Dict Name V) (hwf : Dict.WF kw)
    (n : List Nat) (c : RecordClass V) :
    recordText [s] kw = .ok (n, c) ↔
      (∃ req opt, ws = req ++ opt ∧ opt.Nodup ∧ (∀ w ∈ req, w ∉ Dict.keys kw) ∧ (∀ w, w ∈ opt ↔ w ∈ Dict.keys kw) ∧
        c.defaults = opt.filterMap (Dict.get? kw)) ∧
      Nameable ws ∧ c.names = ws ∧ n = [82, 101, 99, 111, 114, 100, 60] ++ oneLine ws ++ [62] := by
  unfold recordText
  rw [List.map_singleton, split_of_spells hs]
  cases hr : record [ws] kw with
  | error e =>
    constructor
    · intro h; cases h
    · rintro ⟨⟨req, opt, h1, h2, h3, h4, h5⟩, -, h6, -⟩
      have := (record_named ws kw hwf c).mpr ⟨req, opt, ⟨h1, h2, h3, h4⟩, h6, h5⟩
      rw [hr] at this; cases this
  | ok c' =>
    obtain ⟨req, opt, ⟨h1, h2, h3, h4⟩, h5, h6⟩ := (record_named ws kw hwf c').mp hr
    simp only [bind, Except.bind, pure, Except.pure]
    rw [h5]
    constructor
    · intro h
      cases ht : typeName (className ws) with
      | error e => rw [ht] at h; cases h
      | ok u =>
        rw [ht] at h
        cases h
        refine ⟨⟨req, opt, h1, h2, h3, h4, h6⟩, (typeName_iff ws).mp ht, h5, ?_⟩
        rw [className, oneLine_join]
    · rintro ⟨⟨req', opt', g1, g2, g3, g4, g5⟩, hn, g6, rfl⟩
      have := (record_named ws kw hwf c).mpr ⟨req', opt', ⟨g1, g2, g3, g4⟩, g6, g5⟩
      rw [hr] at this
      cases this
      rw [(typeName_iff ws).mpr hn, className, oneLine_join]

/-- What is refused: `TypeError` for defaults that do not fit, else `UnicodeEncodeError` for a lone surrogate, else `ValueError`
for a NUL. -/
theorem record_text_error {V : Type} {ws : List Name} {s : List Nat} (hs : Spells ws s) (kw : Dict Name V) (hwf : Dict.WF kw) :
    ((¬ ∃ req opt, ws = req ++ opt ∧ opt.Nodup ∧ (∀ w ∈ req, w ∉ Dict.keys kw) ∧ (∀ w, w ∈ opt ↔ w ∈ Dict.keys kw)) →
      recordText [s] kw = .error .typeError) ∧
    (kw = [] → (∃ w ∈ ws, ∃ c ∈ w, 0xd800 ≤ c ∧ c ≤ 0xdfff) → recordText [s] kw = .error .unicodeError) ∧
    (kw = [] → (¬ ∃ w ∈ ws, ∃ c ∈ w, 0xd800 ≤ c ∧ c ≤ 0xdfff) → (∃ w ∈ ws, 0 ∈ w) → recordText [s] kw = .error .valueError) := by
  have hbare : record [ws] ([] : Dict Name V) = .ok ⟨ws, []⟩ :=
    (record_named ws [] (by simp [Dict.WF, Dict.keys]) ⟨ws, []⟩).mpr
      ⟨ws, [], ⟨by simp, by simp, by simp [Dict.keys], by simp [Dict.keys]⟩, rfl, rfl⟩
  have hmem : ∀ w ∈ ws, ∀ c ∈ w, c ∈ className ws := by
    intro w hw c hc; rw [className, oneLine_join]; simp [oneLine_mem hw hc]
  have hmem' : ∀ c ∈ className ws, 0xd800 ≤ c → ∃ w ∈ ws, c ∈ w := by
    intro c hc hge
    rw [className, oneLine_join] at hc
    simp only [List.mem_append, List.mem_cons, List.not_mem_nil, or_false] at hc
    rcases hc with (hc | hc) | hc
    · omega
    · rcases mem_oneLine hc with hc | h
      · omega
      · exact h
    · omega
  refine ⟨fun h => ?_, ?_, ?_⟩
  · unfold recordText
    rw [List.map_singleton, split_of_spells hs]
    cases hr : record [ws] kw with
    | ok c' =>
      obtain ⟨req, opt, ⟨h1, h2, h3, h4⟩, -, -⟩ := (record_named ws kw hwf c').mp hr
      exact absurd ⟨req, opt, h1, h2, h3, h4⟩ h
    | error e => rw [record_illegal [ws] kw e hr]; rfl
  · rintro rfl ⟨w, hw, c, hc, h1, h2⟩
    unfold recordText
    rw [List.map_singleton, split_of_spells hs, hbare]
    simp only [bind, Except.bind]
    rw [typeName, if_pos]
    exact List.any_eq_true.mpr ⟨c, hmem w hw c hc, by simp [h1, h2]⟩
  · rintro rfl hno ⟨w, hw, h0⟩
    unfold recordText
    rw [List.map_singleton, split_of_spells hs, hbare]
    simp only [bind, Except.bind]
    rw [typeName, if_neg, if_pos (List.contains_iff_mem.mpr (hmem w hw 0 h0))]
    rw [List.any_eq_true]
    rintro ⟨c, hc, h2⟩
    simp only [Bool.and_eq_true, decide_eq_true_eq] at h2
    obtain ⟨w', hw', hcw⟩ := hmem' c hc h2.1
    exact hno ⟨w', hw', c, hcw, h2⟩

/-- Only the words count: two texts with the same words make the same record; and the words, written in one line between the
brackets of the class's name, make it again. -/
theorem respelled {V : Type} {ws : List Name} {s t : List Nat} (hs : Spells ws s) (ht : Spells ws t) (kw : Dict Name V) :
    recordText [s] kw = recordText [t] kw := by
  unfold recordText
  rw [List.map_singleton, List.map_singleton, split_of_spells hs, split_of_spells ht]

theorem spells_oneLine {ws : List Name} {s : List Nat} (hs : Spells ws s) : Spells ws (oneLine ws) := by
  induction hs with
  | blank p hp => exact .blank [] (by simp)
  | last p w hp hw h => exact .last [] w (by simp) hw h
  | @more p w c hp hw h hc ws s hs ih =>
    cases ws with
    | nil => exact .last [] w (by simp) hw h
    | cons v vs =>
      rw [oneLine]
      exact .more [] w 32 (by simp) hw h (by decide) ih

theorem name_reads_back {V : Type} {s n : List Nat} {c : RecordClass V} (kw : Dict Name V) (hwf : Dict.WF kw)
    (h : recordText [s] kw = .ok (n, c)) :
    ∃ t, n = [82, 101, 99, 111, 114, 100, 60] ++ t ++ [62] ∧ recordText [t] kw = .ok (n, c) := by
  have hs := (split_iff s _).mp rfl
  have h' := (record_text hs kw hwf n c).mp h
  exact ⟨_, h'.2.2.2, by rw [← respelled hs (spells_oneLine hs)]; exact h⟩

/-- A text without words makes a record without attributes, though `record()` is refused. -/
theorem blank_text {V : Type} (s : List Nat) (h : ∀ c ∈ s, c ∈ spaces) :
    recordText (V := V) [s] [] = .ok ([82, 101, 99, 111, 114, 100, 60, 62], ⟨[], []⟩) ∧
      recordText (V := V) [] [] = .error .typeError := by
  refine ⟨(record_text (.blank s h) [] (by simp [Dict.WF, Dict.keys]) _ _).mpr ⟨⟨[], [], ?_⟩, ?_, rfl, rfl⟩, rfl⟩
  · simp [Dict.keys]
  · intro w hw; cases hw

theorem setAttrs_dup {V : Type} (ns : List Name) (kw attrs : Dict Name V) (hwf : Dict.WF kw) (hd : ¬ ns.Nodup) :
    setAttrs ns kw attrs = .error .typeError := by
  have gone : ∀ (ns : List Name) (kw attrs : Dict Name V) (n : Name), Dict.WF kw → n ∈ ns → Dict.get? kw n = none →
      setAttrs ns kw attrs = .error .typeError := by
    intro ns
    induction ns with
    | nil => intro kw attrs n _ h; cases h
    | cons m ms ih =>
      intro kw attrs n hwf hn hg
      rw [setAttrs]
      split
      · rfl
      · rename_i v hm
        rcases List.mem_cons.mp hn with rfl | hn
        · rw [hg] at hm; cases hm
        · refine ih _ _ n (hwf.erase _) hn ?_
          by_cases hmn : m = n
          · subst hmn; exact Dict.get?_erase_same hwf m
          · rw [Dict.get?_erase_other kw m n hmn]; exact hg
  induction ns generalizing kw attrs with
  | nil => exact absurd List.nodup_nil hd
  | cons m ms ih =>
    rw [setAttrs]
    split
    · rfl
    · rw [List.nodup_cons] at hd
      by_cases hm : m ∈ ms
      · exact gone ms _ _ m (hwf.erase _) hm (Dict.get?_erase_same hwf m)
      · exact ih _ _ (hwf.erase _) fun h => hd ⟨hm, h⟩

theorem bindPositional_wf {V : Type} (ps : List (Name × V)) (kw kw' : Dict Name V) (hwf : Dict.WF kw)
    (h : bindPositional ps kw = .ok kw') : Dict.WF kw' := by
  induction ps generalizing kw with
  | nil => cases h; exact hwf
  | cons p ps ih =>
    obtain ⟨n, v⟩ := p
    rw [bindPositional] at h
    split at h
    · cases h
    · exact ih _ (hwf.set _ _) h

/-- An attribute named twice: the class is made (when it has no defaults), but no call of it succeeds. -/
theorem named_twice {V : Type} (c : RecordClass V) (hd : ¬ c.names.Nodup) (args : List V) (kw : Dict Name V) (hwf : Dict.WF kw) :
    call c args kw = .error .typeError := by
  unfold call
  split
  · rfl
  · unfold init
    simp only [bind, Except.bind]
    split
    · rfl
    · rename_i h1
      cases hb : bindPositional (c.names.zip args) kw with
      | error e => rw [bindPositional_err_iff _ _ e hb]
      | ok kw' =>
        simp only
        rw [setAttrs_dup _ _ _ (fillDefaults_wf _ _ (bindPositional_wf _ _ _ hwf hb)) hd]

/-- **C134, partial.**  A class with different attributes, none called `self`, is called like a function with these parameters
and defaults: by position, by keyword, or both.  Missing: the keyword `self`. -/
theorem call_partial {V : Type} (c : RecordClass V) (hnd : c.names.Nodup) (hd : c.defaults.length ≤ c.names.length)
    (hself : selfName ∉ c.names) (args : List V) (kw : Dict Name V) (hwf : Dict.WF kw) :
    (CallOK c args kw → ∃ attrs, call c args kw = .ok attrs ∧ Dict.keys attrs = c.names ∧
      ∀ i n, c.names[i]? = some n → Dict.get? attrs n = boundValue c args kw i n) ∧
    (¬ CallOK c args kw → call c args kw = .error .typeError) := by
  constructor
  · intro h
    have : ¬ Dict.has kw selfName = true := fun hm => hself (h.2.2.2 _ ((Dict.has_iff _ _).mp hm))
    unfold call
    rw [if_neg this]
    exact init_ok c hnd hd args kw hwf h
  · intro h
    unfold call
    split
    · rfl
    · exact init_error c hnd hd args kw hwf h

/-- An attribute called `self` can be given by position only: `record('self')(self=1)` is refused, `record('self')(1)` works. -/
theorem self_fails : recordText (V := Nat) [selfName] [] = .ok ([82, 101, 99, 111, 114, 100, 60, 115, 101, 108, 102, 62], ⟨[selfName], []⟩) ∧
    CallOK ⟨[selfName], []⟩ [] [(selfName, 1)] ∧ call ⟨[selfName], []⟩ [] [(selfName, 1)] = .error .typeError ∧
    call ⟨[selfName], []⟩ [1] [] = .ok [(selfName, 1)] := by
  refine ⟨rfl, ⟨by decide, ?_, ?_, by decide⟩, rfl, rfl⟩
  · intro i n _ h; exact absurd h (Nat.not_lt_zero _)
  · intro i n h
    cases i with
    | zero => cases h; decide
    | succ i => cases h

/-- Concrete: tab, `ab`, two spaces, `c` and a line feed, with a default for `c`; and a call of the class. -/
example : recordText (V := Nat) [[9, 97, 98, 32, 0x2003, 99, 10]] [([99], 7)] =
    .ok ([82, 101, 99, 111, 114, 100, 60, 97, 98, 32, 99, 62], ⟨[[97, 98], [99]], [7]⟩) := rfl
example : call (V := Nat) ⟨[[97, 98], [99]], [7]⟩ [1] [] = .ok [([97, 98], 1), ([99], 7)] := rfl
/-- `record('a a')` is a class. -/
example : recordText (V := Nat) [[97, 32, 97]] [] = .ok ([82, 101, 99, 111, 114, 100, 60, 97, 32, 97, 62], ⟨[[97], [97]], []⟩) := rfl
example : recordText (V := Nat) [[97, 0]] [] = .error .valueError := rfl
example : Spells [[97], [98]] [32, 97, 10, 98] :=
  .more [32] [97] 10 (by decide) (by decide) (by decide) (by decide) (.last [] [98] (by decide) (by decide) (by decide))

end Verif.StructlikeText
