import Verif.Lemmas.JuiceArgs
/-!
# Juice arguments and commands: C28, C29, C30
-/
namespace Verif.JuiceArgs
open Verif.Py Verif.Juice

/-! ## C28: argument types decode what they encode -/

/-- C28: every integer survives `Integer`. -/
theorem integer_survives (U : Uni) (o : Bool) (n : Int) : Survives (integer U o) (.int n) := by
  have ha : ∀ c ∈ intStr n, c < 128 := by
    intro c hc
    unfold intStr at hc
    have hd : ∀ m, ∀ c ∈ natStr m, c < 128 := by
      intro m c hc
      have := natStr_isDigit m c hc
      unfold isDigit at this
      simp at this; omega
    split at hc
    · rcases List.mem_cons.1 hc with rfl | hc
      · omega
      · exact hd _ c hc
    · exact hd _ c hc
  have he : U.int (intStr n) = some n := by rw [U.int_ascii _ ha, asciiInt_intStr]
  refine ⟨.text (intStr n), intStr n, rfl, rfl, ?_, ⟨.int n, ?_, .int n⟩, ⟨.int n, ?_, .int n⟩⟩
  · exact fun c hc => Or.inl (by have := ha c hc; omega)
  · simp [integer, he]
  · simp [integer, he]

/-- C28: every well-formed text survives `String`. -/
theorem string_survives (o : Bool) (s : Str) (h : ∀ c ∈ s, IsScalar c) : Survives (string o) (.str s) :=
  ⟨.text s, s, rfl, rfl, h, ⟨.str s, rfl, .str s⟩, ⟨.str s, rfl, .str s⟩⟩

/-- C28: both truth values survive `Boolean`. -/
theorem boolean_survives (o : Bool) (b : Bool) : Survives (boolean o) (.bool b) := by
  cases b with
  | true => exact ⟨.text TRUE, TRUE, rfl, rfl, by decide, ⟨.bool true, by simp [boolean], .bool true⟩,
      ⟨.bool true, by simp [boolean], .bool true⟩⟩
  | false =>
    have hne : FALSE ≠ TRUE := by decide
    exact ⟨.text FALSE, FALSE, rfl, rfl, by decide, ⟨.bool false, by simp [boolean, hne], .bool false⟩,
      ⟨.bool false, by simp [boolean, hne], .bool false⟩⟩

/-- C28: a non-empty list survives `ListOf` if its elements survive as text without the delimiter (and the delimiter
does not overlap itself, which `', '` does not). -/
theorem listOf_survives_partial (c : Codec) (delimiter : Str) (hne : delimiter ≠ []) (hub : Unbordered delimiter)
    (hsc : ∀ ch ∈ delimiter, IsScalar ch) (l : List Obj) (hl : l ≠ [])
    (h : ∀ x ∈ l, Survives c x ∧ ∃ s, c.enc x = .ok (.text s) ∧ ¬ delimiter <:+: s) :
    Survives (listOf c delimiter) (.list l) := by
  have hitem : ∀ x ∈ l, ∃ s, listItem c delimiter x = .ok s ∧
      (¬ delimiter <:+: s ∧ (∀ ch ∈ s, IsScalar ch) ∧ ∃ y, c.dec (.text s) = .ok y ∧ Same x y) := by
    intro x hx
    obtain ⟨⟨v, t, h1, h2, h3, h4, h5⟩, s, h6, h7⟩ := h x hx
    rw [h1, Except.ok.injEq] at h6
    subst h6
    cases h2
    exact ⟨_, by simp [listItem, h1, h7, bind, Except.bind, pure, Except.pure], h7, h3, h5⟩
  obtain ⟨ss, hm, hf⟩ := mapE_forall₂ hitem
  have hss : ss ≠ [] := by
    intro e; subst e; cases hf; exact hl rfl
  have hno : ∀ s ∈ ss, ¬ delimiter <:+: s ∧ ∀ ch ∈ s, IsScalar ch := by
    clear hm hss hitem h hl
    induction hf with
    | nil => intro s hs; cases hs
    | cons hx _ ih =>
      intro s hs
      rcases List.mem_cons.1 hs with rfl | hs
      · exact ⟨hx.1, hx.2.1⟩
      · exact ih s hs
  have hd : ∃ ys, mapE (fun s => c.dec (.text s)) ss = .ok ys ∧ List.Forall₂ Same l ys := by
    clear hm hss hno hitem h hl
    induction hf with
    | nil => exact ⟨[], rfl, .nil⟩
    | cons hx _ ih =>
      obtain ⟨-, -, y, hy, hs⟩ := hx
      obtain ⟨ys, hys, hss⟩ := ih
      exact ⟨y :: ys, by simp [mapE, hy, hys, bind, Except.bind, pure, Except.pure], .cons hs hss⟩
  obtain ⟨ys, hys, hsame⟩ := hd
  have hfin : (listOf c delimiter).dec (.text (joinSep delimiter ss)) = .ok (.list ys) := by
    simp only [listOf, if_neg hne]
    rw [splitSep_joinSep delimiter hne hub ss hss (fun s hs => (hno s hs).1), hys]
    rfl
  refine ⟨.text (joinSep delimiter ss), joinSep delimiter ss, ?_, rfl, ?_, ⟨_, hfin, .list hsame⟩, ⟨_, hfin, .list hsame⟩⟩
  · simp [listOf, Obj.iter, hm, bind, Except.bind, pure, Except.pure]
  · have : ∀ (ss : List Str), (∀ s ∈ ss, ∀ ch ∈ s, IsScalar ch) → ∀ ch ∈ joinSep delimiter ss, IsScalar ch := by
      intro ss
      induction ss with
      | nil => intro _ ch hc; cases hc
      | cons p ss ih =>
        intro hall ch hc
        cases ss with
        | nil => exact hall p (by simp) ch hc
        | cons q ss =>
          rw [joinSep_cons_cons, List.mem_append, List.mem_append] at hc
          rcases hc with (hc | hc) | hc
          · exact hall p (by simp) ch hc
          · exact hsc ch hc
          · exact ih (fun s hs => hall s (List.mem_cons_of_mem _ hs)) ch hc
    exact this ss fun s hs => (hno s hs).2

/-- C28: what `Integer` is given besides integers travels as the integer that `int` makes of it: truth values as 1 and 0, text
and bytes as what they denote, floats without their fraction; other things are refused. -/
theorem integer_coerces (U : Uni) (o : Bool) :
    (integer U o).enc (.bool true) = (integer U o).enc (.int 1) ∧
    (integer U o).enc (.bool false) = (integer U o).enc (.int 0) ∧
    (∀ s n, U.int s = some n → (integer U o).enc (.str s) = (integer U o).enc (.int n)) ∧
    (∀ s, U.int s = none → (integer U o).enc (.str s) = .error .valueError) ∧
    (∀ b n, asciiInt b = some n → (integer U o).enc (.bytes b) = (integer U o).enc (.int n)) ∧
    (∀ b, asciiInt b = none → (integer U o).enc (.bytes b) = .error .valueError) ∧
    (∀ q, (integer U o).enc (.float (.fin false q)) = (integer U o).enc (.int ⌊q⌋)) ∧
    (∀ q, (integer U o).enc (.float (.fin true q)) = (integer U o).enc (.int (-⌊q⌋))) ∧
    (integer U o).enc (.float .nan) = .error .valueError ∧
    (∀ neg, (integer U o).enc (.float (.inf neg)) = .error .overflowError) ∧
    (integer U o).enc .none = .error .typeError ∧ (∀ l, (integer U o).enc (.list l) = .error .typeError) := by
  refine ⟨rfl, rfl, fun s n h => ?_, fun s h => ?_, fun b n h => ?_, fun b h => ?_, fun _ => rfl, fun _ => rfl, rfl, fun _ => rfl,
    rfl, fun _ => rfl⟩ <;> simp [integer, h]

/-- C28: what `Boolean` is given besides truth values travels as its truth value: `None`, 0, 0.0, -0.0 and everything empty as `False`,
other numbers, non-empty things, times and paths as `True`. -/
theorem boolean_coerces (o : Bool) (x : Obj) :
    (boolean o).enc x = .ok (.text FALSE) ↔
      x = .none ∨ x = .int 0 ∨ x = .str [] ∨ x = .bool false ∨ x = .list [] ∨ x = .dict [] ∨ x = .bytes [] ∨
        x = .float (.fin false 0) ∨ x = .float (.fin true 0) := by
  have hne : TRUE ≠ FALSE := by decide
  cases x with
  | float x =>
    rcases x with _ | _ | ⟨neg, q⟩
    · simp [boolean, Obj.truth, PyFloat.truth, hne]
    · simp [boolean, Obj.truth, PyFloat.truth, hne]
    · cases neg <;> by_cases hq : q = 0 <;> simp [boolean, Obj.truth, PyFloat.truth, hne, hq]
  | bool b => cases b <;> simp [boolean, Obj.truth, hne]
  | _ => simp [boolean, Obj.truth, hne]

/-- C28: `Boolean` reads `'True'` and `'False'` and refuses everything else. -/
theorem boolean_reads (o : Bool) (v : Val) (x : Obj) :
    ((boolean o).dec v = .ok x ↔
      (v = .text [84, 114, 117, 101] ∧ x = .bool true) ∨ (v = .text [70, 97, 108, 115, 101] ∧ x = .bool false)) ∧
    (v ≠ .text [84, 114, 117, 101] → v ≠ .text [70, 97, 108, 115, 101] → (boolean o).dec v = .error .runtimeError) := by
  have hne : FALSE ≠ TRUE := by decide
  change (_ ↔ (v = .text TRUE ∧ x = .bool true) ∨ (v = .text FALSE ∧ x = .bool false)) ∧
    (v ≠ .text TRUE → v ≠ .text FALSE → _)
  unfold boolean
  by_cases h1 : v = .text TRUE
  · subst h1
    simp [hne.symm, eq_comm (b := x)]
  · by_cases h2 : v = .text FALSE
    · subst h2
      simp [hne, eq_comm (b := x)]
    · simp [h1, h2]

/-- C28: `Integer` reads what `int` reads and refuses everything else. -/
theorem integer_reads (U : Uni) (o : Bool) (s : Str) (x : Obj) :
    ((integer U o).dec (.text s) = .ok x ↔ ∃ n, U.int s = some n ∧ x = .int n) ∧
    (U.int s = none → (integer U o).dec (.text s) = .error .valueError) := by
  cases h : U.int s <;> simp [integer, h, eq_comm]

/-- C28: so every non-empty list of integers survives `ListOf(Integer())`. -/
theorem integers_survive_partial (U : Uni) (o : Bool) (l : List Int) (hl : l ≠ []) :
    Survives (listOf (integer U o) [44, 32]) (.list (l.map .int)) := by
  apply listOf_survives_partial
  · simp
  · decide
  · decide
  · simpa using hl
  · intro x hx
    obtain ⟨n, _, rfl⟩ := List.mem_map.1 hx
    refine ⟨integer_survives U o n, intStr n, rfl, ?_⟩
    intro hin
    have h44 : 44 ∈ intStr n := hin.subset (by simp)
    unfold intStr at h44
    have hd : ∀ m, 44 ∉ natStr m := fun m hm => by have := natStr_isDigit m 44 hm; revert this; decide
    split at h44
    · rcases List.mem_cons.1 h44 with h | h
      · omega
      · exact hd _ h
    · exact hd _ h44

/-- C28: `ListOf` never garbles: an element whose encoding contains the delimiter is refused. -/
theorem listOf_refuses (c : Codec) (delimiter : Str) (l : List Obj) (x : Obj) (hx : x ∈ l) (s : Str)
    (he : c.enc x = .ok (.text s)) (hs : delimiter <:+: s) : ∃ e, (listOf c delimiter).enc (.list l) = .error e := by
  have : ∀ ss, mapE (listItem c delimiter) l ≠ .ok ss := by
    intro ss hm
    have hf := mapE_ok hm
    clear hm
    induction hf with
    | nil => cases hx
    | cons h _ ih =>
      rcases List.mem_cons.1 hx with rfl | hx
      · simp [listItem, he, hs, bind, Except.bind] at h
      · exact ih hx
  cases hm : mapE (listItem c delimiter) l with
  | error e => exact ⟨e, by simp [listOf, Obj.iter, hm, bind, Except.bind]⟩
  | ok ss => exact absurd hm (this ss)

/-- C28: with `AssertionError`, if the elements before it can be sent. -/
theorem listOf_assertion (c : Codec) (delimiter : Str) (a b : List Obj) (x : Obj) (s : Str)
    (ha : ∀ y ∈ a, ∃ t, c.enc y = .ok (.text t) ∧ ¬ delimiter <:+: t) (he : c.enc x = .ok (.text s)) (hs : delimiter <:+: s) :
    (listOf c delimiter).enc (.list (a ++ x :: b)) = .error .assertionError := by
  have : mapE (listItem c delimiter) (a ++ x :: b) = .error .assertionError := by
    induction a with
    | nil => simp [mapE, listItem, he, hs, bind, Except.bind]
    | cons y a ih =>
      obtain ⟨t, h1, h2⟩ := ha y (by simp)
      rw [List.cons_append, mapE]
      simp [listItem, h1, h2, bind, Except.bind, pure, Except.pure]
      rw [ih fun z hz => ha z (List.mem_cons_of_mem _ hz)]
  simp [listOf, Obj.iter, this, bind, Except.bind]

/-- `['x', 'a, b']` -/
example : (listOf (string false) [44, 32]).enc (.list ([.str [120]] ++ .str [97, 44, 32, 98] :: [])) = .error .assertionError :=
  listOf_assertion _ _ _ _ _ [97, 44, 32, 98] (by simp [string]; decide) rfl ⟨[97], [98], rfl⟩

/-- C28 is false for the empty list: `ListOf(String())` turns `[]` into `['']`, and `ListOf(Integer())` cannot even
read what it wrote. -/
theorem listOf_empty_fails :
    (∃ v, (listOf (string false) [44, 32]).enc (.list []) = .ok v ∧
      (listOf (string false) [44, 32]).dec v = .ok (.list [.str []])) ∧
    ∃ v, (listOf (integer Uni.ascii false) [44, 32]).enc (.list []) = .ok v ∧
      (listOf (integer Uni.ascii false) [44, 32]).dec v = .error .valueError :=
  ⟨⟨.text [], rfl, rfl⟩, ⟨.text [], rfl, rfl⟩⟩

/-- C28 is false for delimiters that overlap themselves: with `'aa'`, `['ba', 'b']` comes back as `['b', 'ab']`. -/
theorem listOf_overlap_fails :
    ∃ v, (listOf (string false) [97, 97]).enc (.list [.str [98, 97], .str [98]]) = .ok v ∧
      (listOf (string false) [97, 97]).dec v = .ok (.list [.str [98], .str [97, 98]]) :=
  ⟨.text [98, 97, 97, 97, 98], rfl, rfl⟩

/-! ## C29: arguments survive the box -/

theorem enc_of_acceptable {c : Codec} {o : Option Obj} (h : Acceptable c o) : ∃ v, Enc c o v := by
  rcases h with ⟨x, rfl, hs⟩ | ⟨h1, h2⟩
  · by_cases hn : c.optional = true ∧ x.isNone = true
    · exact ⟨none, .inr ⟨hn.1, .inr (by rw [isNone_iff.1 hn.2]), rfl⟩⟩
    · obtain ⟨v, t, h1, -⟩ := hs
      exact ⟨some v, .inl ⟨x, v, rfl, hn, h1, rfl⟩⟩
  · exact ⟨none, .inr ⟨h1, h2, rfl⟩⟩

/-- `strings` holds `box`'s value for `name`, as it was or as text. -/
def Holds (box strings : Dict Str Val) (name : Str) : Prop :=
  match Dict.get? box name with
  | none => Dict.get? strings name = none
  | some v => ∃ w, Dict.get? strings name = some w ∧ (w = v ∨ ∃ t, WireText v t ∧ w = .text t)

theorem wireText_inj {v : Val} {t t' : Str} (h : WireText v t) (h' : WireText v t') : t = t' := by
  cases v with
  | text s => cases h; exact h'
  | raw b =>
    have e1 := utf8Decode_encode _ _ h
    have e2 := utf8Decode_encode _ _ h'
    rw [e1, Option.some.injEq] at e2; exact e2

theorem dec_of_enc {c : Codec} {o : Option Obj} (h : Acceptable c o) {box strings : Dict Str Val} {name : Str}
    (he : Enc c o (Dict.get? box name)) (hh : Holds box strings name) :
    ∃ y, Dec c (Dict.get? strings name) (some y) ∧ Same (o.getD .none) y := by
  unfold Holds at hh
  rcases he with ⟨x, w, h1, h2, h3, h4⟩ | ⟨h1, h2, h3⟩
  · rw [h4] at hh
    obtain ⟨w', e1, e2⟩ := hh
    subst h1
    rcases h with ⟨x', hx', hs⟩ | ⟨k1, k2⟩
    · cases hx'
      obtain ⟨v, t, g1, g2, g3, ⟨y1, d1, s1⟩, ⟨y2, d2, s2⟩⟩ := hs
      rw [h3, Except.ok.injEq] at g1
      subst g1
      rcases e2 with rfl | ⟨t', e2, rfl⟩
      · exact ⟨y1, .inl ⟨_, y1, e1, d1, rfl⟩, s1⟩
      · rw [wireText_inj g2 e2] at d2
        exact ⟨y2, .inl ⟨_, y2, e1, d2, rfl⟩, s2⟩
    · rcases k2 with k2 | k2
      · cases k2
      · cases k2; exact absurd ⟨k1, rfl⟩ h2
  · rw [h3] at hh
    refine ⟨.none, .inr ⟨h1, hh, rfl⟩, ?_⟩
    rcases h2 with rfl | rfl <;> exact .none

/-- C29: with acceptable objects for every declared argument, `objectsToStrings` succeeds, and `stringsToObjects` of
any box that agrees with the result on the declared names — whatever else it contains — gives exactly the declared
names, each with an equal object, or `None` for absent optional ones. -/
theorem arguments_survive (U : Uni) (args : ArgList) (hn : (args.map Prod.fst).Nodup) (objects : List (Str × Obj))
    (h : ∀ n c, (n, c) ∈ args → Acceptable c (given U objects n)) :
    ∃ box, objectsToStrings U objects args = .ok box ∧
      ∀ strings, (∀ n ∈ args.map Prod.fst, Holds box strings n) →
      ∃ r, stringsToObjects strings args = .ok r ∧ Dict.keys r = args.map Prod.fst ∧
        ∀ n ∈ args.map Prod.fst, ∃ y, Dict.get? r n = some y ∧ Same ((given U objects n).getD .none) y := by
  obtain ⟨box, objs', b1, b2, b3, -⟩ := toBoxAll_spec args hn [] (normalizeObjects U objects) Dict.WF.nil (by simp)
    (fun n c hm => by rw [get?_normalizeObjects]; exact enc_of_acceptable (h n c hm))
  refine ⟨box, by simp [objectsToStrings, b1, bind, Except.bind, pure, Except.pure], ?_⟩
  intro strings hs
  have hdec : ∀ n c, (n, c) ∈ args → ∃ y, Dec c (Dict.get? strings n) (some y) ∧
      Same ((given U objects n).getD .none) y := by
    intro n c hm
    have he := b3 n c hm
    rw [get?_normalizeObjects] at he
    exact dec_of_enc (h n c hm) he (hs n (List.mem_map.2 ⟨_, hm, rfl⟩))
  obtain ⟨strings', r, r1, r2, r3, -⟩ := fromBoxAll_spec args hn strings [] (by simp [Dict.keys])
    (fun n c hm => let ⟨y, hy⟩ := hdec n c hm; ⟨some y, hy.1⟩)
  refine ⟨r, by simp [stringsToObjects, r1, bind, Except.bind, pure, Except.pure], by simpa [Dict.keys] using r2, ?_⟩
  intro n hnm
  obtain ⟨⟨n', c⟩, hm, rfl⟩ := List.mem_map.1 hnm
  obtain ⟨y, hy, hsame⟩ := hdec n' c hm
  have h3 := r3 n' c hm
  refine ⟨y, ?_, hsame⟩
  rcases h3 with ⟨w, x, e1, e2, e3⟩ | ⟨e1, e2, e3⟩
  · rcases hy with ⟨w', x', f1, f2, f3⟩ | ⟨f1, f2, f3⟩
    · rw [e1] at f1; cases f1
      rw [e2, Except.ok.injEq] at f2; cases f3
      rw [e3, f2]
    · rw [e1] at f2; cases f2
  · rcases hy with ⟨w', x', f1, f2, f3⟩ | ⟨f1, f2, f3⟩
    · rw [e2] at f1; cases f1
    · cases f3; exact e3

/-- C29: extra keys in the box are ignored. -/
theorem extra_keys_ignored (args : ArgList) (s₁ s₂ : Dict Str Val)
    (hn : (args.map Prod.fst).Nodup)
    (h : ∀ n ∈ args.map Prod.fst, Dict.get? s₁ n = Dict.get? s₂ n) : stringsToObjects s₁ args = stringsToObjects s₂ args := by
  have key : ∀ (args : ArgList) (s₁ s₂ : Dict Str Val) (objs : Dict Str Obj), (args.map Prod.fst).Nodup →
      (∀ n ∈ args.map Prod.fst, Dict.get? s₁ n = Dict.get? s₂ n) →
      (fromBoxAll args (s₁, objs)).map Prod.snd = (fromBoxAll args (s₂, objs)).map Prod.snd := by
    intro args
    induction args with
    | nil => intros; rfl
    | cons a args ih =>
      intro s₁ s₂ objs hn h
      obtain ⟨name, c⟩ := a
      rw [List.map_cons, List.nodup_cons] at hn
      have hne : ∀ n ∈ args.map Prod.fst, name ≠ n := fun n hm e => hn.1 (e ▸ hm)
      have h0 := h name (by simp)
      have h1 : ∀ n ∈ args.map Prod.fst, Dict.get? s₁ n = Dict.get? s₂ n := fun n hm => h n (by simp [hm])
      unfold fromBoxAll fromBox retrieve
      simp only [h0]
      cases hg : Dict.get? s₂ name with
      | some v =>
        simp only [Bool.and_false, Bool.false_eq_true, if_false, bind, Except.bind]
        cases c.dec v with
        | error e => rfl
        | ok o =>
          simp only [pure, Except.pure]
          apply ih _ _ _ hn.2
          intro n hm
          rw [Dict.get?_erase_other _ _ _ (hne n hm), Dict.get?_erase_other _ _ _ (hne n hm), h1 n hm]
      | none =>
        simp only
        split
        · simp only [bind, Except.bind, pure, Except.pure]
          exact ih _ _ _ hn.2 h1
        · rfl
  have := key args s₁ s₂ [] hn h
  unfold stringsToObjects
  cases e1 : fromBoxAll args (s₁, []) <;> cases e2 : fromBoxAll args (s₂, []) <;>
    simp_all [Except.map, bind, Except.bind, pure, Except.pure]

/-! ## C29 over the wire, and C28 for `JuiceList` -/

/-- Names that can be keys of a box on the wire. -/
def WireNames (args : ArgList) : Prop :=
  ∀ n ∈ args.map Prod.fst, WireKey n ∧ CanonicalKey n ∧ n ≠ LENGTH ∧ n ≠ BODY

theorem wireTexts (args : ArgList) (hn : (args.map Prod.fst).Nodup) (objects : Dict Str Obj)
    (h : ∀ n c, (n, c) ∈ args → Acceptable c (Dict.get? objects n)) (hw : WireNames args) :
    ∃ box objs' tb, toBoxAll args ([], objects) = .ok (box, objs') ∧ LegalBox tb ∧ (∀ p ∈ tb, p.1 ≠ BODY) ∧
      serialize box = Juice.serialize tb ∧
      ∀ b', SameBox tb b' → ∀ n ∈ args.map Prod.fst, Holds box (textBox b') n := by
  obtain ⟨box, objs', b1, b2, b3, b4⟩ := toBoxAll_spec args hn [] objects Dict.WF.nil (by simp)
    (fun n c hm => enc_of_acceptable (h n c hm))
  have hkeys : ∀ k ∈ Dict.keys box, k ∈ args.map Prod.fst := by
    intro k hk
    by_contra hc
    have := b4 k hc
    rw [Dict.get?_nil, Dict.get?_eq_none_iff] at this
    exact this hk
  have hval : ∀ k v, (k, v) ∈ box → ∃ t, WireText v t ∧ ∀ ch ∈ t, IsScalar ch := by
    intro k v hm
    have hk := hkeys k (List.mem_map.2 ⟨_, hm, rfl⟩)
    obtain ⟨⟨k', c⟩, hmc, e⟩ := List.mem_map.1 hk
    simp only at e; subst e
    have he := b3 k' c hmc
    rw [Dict.get?_of_mem b2 hm] at he
    rcases he with ⟨x, w, h1, h2, h3, h4⟩ | ⟨h1, h2, h3⟩
    · cases h4
      rcases h k' c hmc with ⟨x', hx', hs⟩ | ⟨k1, k2⟩
      · rw [h1] at hx'; cases hx'
        obtain ⟨v', t, g1, g2, g3, -⟩ := hs
        rw [h3, Except.ok.injEq] at g1; subst g1
        exact ⟨t, g2, g3⟩
      · rw [h1] at k2
        rcases k2 with k2 | k2
        · cases k2
        · cases k2; exact absurd ⟨k1, rfl⟩ h2
    · cases h3
  have htb : ∃ tb : Box, List.Forall₂ (fun p q => p.1 = q.1 ∧ p.1 ∈ args.map Prod.fst ∧ WireText p.2 q.2 ∧
      ∀ ch ∈ q.2, IsScalar ch) box tb := by
    clear b1 b2 b3 b4
    induction box with
    | nil => exact ⟨[], .nil⟩
    | cons p box ih =>
      obtain ⟨k, v⟩ := p
      obtain ⟨t, h1, h2⟩ := hval k v (by simp)
      obtain ⟨tb, h3⟩ := ih (fun k hk => hkeys k (by simp only [Dict.keys, List.map_cons, List.mem_cons]; exact .inr hk))
        (fun k v hm => hval k v (List.mem_cons_of_mem _ hm))
      exact ⟨(k, t) :: tb, .cons ⟨rfl, hkeys k (by simp [Dict.keys]), h1, h2⟩ h3⟩
  obtain ⟨tb, htb⟩ := htb
  have hfst : tb.map Prod.fst = box.map Prod.fst := by
    clear b1 b2 b3 b4 hkeys hval
    induction htb with
    | nil => rfl
    | cons hp _ ih => rw [List.map_cons, List.map_cons, ih, hp.1]
  have hmem : ∀ q ∈ tb, q.1 ∈ args.map Prod.fst ∧ ∀ ch ∈ q.2, IsScalar ch := by
    clear b1 b2 b3 b4 hkeys hval hfst
    induction htb with
    | nil => intro q hq; cases hq
    | cons hp _ ih =>
      intro q hq
      rcases List.mem_cons.1 hq with rfl | hq
      · exact ⟨hp.1 ▸ hp.2.1, hp.2.2.2⟩
      · exact ih q hq
  refine ⟨box, objs', tb, b1, ?_, fun p hp => (hw _ (hmem p hp).1).2.2.2, ?_, ?_⟩
  · exact {
      wf := by rw [hfst]; exact b2
      noLength := fun p hp => (hw _ (hmem p hp).1).2.2.1
      keys := fun p hp => ⟨(hw _ (hmem p hp).1).1, (hw _ (hmem p hp).1).2.1⟩
      values := fun p hp => (hmem p hp).2
      body := fun p hp e => absurd e (hw _ (hmem p hp).1).2.2.2 }
  · apply serialize_eq
    exact htb.imp fun p q hp => ⟨hp.1, (hw _ hp.2.1).2.2.2, hp.2.2.1⟩
  · intro b' hb' n _
    -- lookups in `box`, `tb` and `b'` agree
    have hl : match Dict.get? box n with
        | none => Dict.get? tb n = none
        | some v => ∃ t, Dict.get? tb n = some t ∧ WireText v t := by
      clear b1 b2 b3 b4 hkeys hval hfst hmem hb'
      induction htb with
      | nil => rfl
      | @cons p q _ _ hp _ ih =>
        obtain ⟨k, v⟩ := p
        obtain ⟨k', t⟩ := q
        obtain ⟨e, -, e2, -⟩ := hp
        simp only at e e2; subst e
        rw [Dict.get?, Dict.get?]
        by_cases hk : k = n
        · simp only [hk, if_true]; exact ⟨t, rfl, e2⟩
        · simp only [hk, if_false]; exact ih
    have hsame : Dict.get? b' n = Dict.get? tb n := by
      have hwf : Dict.WF tb := by unfold Dict.WF Dict.keys; rw [hfst]; exact b2
      cases hg : Dict.get? tb n with
      | some t => exact Dict.get?_of_mem hb'.1 ((hb'.2 _).2 (Dict.mem_of_get? hg))
      | none =>
        cases hg' : Dict.get? b' n with
        | none => rfl
        | some t =>
          have := Dict.get?_of_mem hwf ((hb'.2 _).1 (Dict.mem_of_get? hg'))
          rw [hg] at this; cases this
    have htext : Dict.get? (textBox b') n = (Dict.get? b' n).map .text := by
      clear hsame hb'
      induction b' with
      | nil => rfl
      | cons p b' ih =>
        obtain ⟨k, t⟩ := p
        simp only [textBox, List.map_cons, Dict.get?] at *
        split
        · rfl
        · exact ih
    unfold Holds
    rw [htext, hsame]
    cases hg : Dict.get? box n with
    | none => rw [hg] at hl; simp only at hl ⊢; rw [hl]; rfl
    | some v =>
      rw [hg] at hl
      obtain ⟨t, h1, h2⟩ := hl
      exact ⟨.text t, by rw [h1]; rfl, .inr ⟨t, h2, rfl⟩⟩

theorem boxesOf_box (bs : List Box) : boxesOf (bs.map .box) = bs := by
  induction bs with
  | nil => rfl
  | cons b bs ih => simp [boxesOf, ih]

theorem collect_benign : Benign collect := fun _ _ => ⟨rfl, rfl, rfl⟩

/-- `parseString` of serialised legal boxes gives the boxes. -/
theorem parseString_boxes (U : Uni) (bs : List Box) (hl : ∀ b ∈ bs, LegalBox b) :
    ∃ xs bs', List.Forall₂ (fun b x => Juice.serialize b = .ok x) bs xs ∧ List.Forall₂ SameBox bs bs' ∧
      parseString U xs.flatten = .ok bs' := by
  obtain ⟨xs, h1, h2⟩ := boxes_received U collect collect_benign bs hl ()
  obtain ⟨bs', h3, h4, h5, -⟩ := h2 [xs.flatten] (by simp)
  refine ⟨xs, bs', h1, h3, ?_⟩
  unfold parseString
  unfold feed at h4 h5
  rcases hd : dataReceived U collect (St.init ()) xs.flatten with ⟨st, _ | e⟩
  · rw [hd] at h5
    simp only
    have : st.trace = bs'.map .box := by
      simp only at h5
      split at h5
      · exact h5
      · exact h5
    rw [this, boxesOf_box]
  · rw [hd] at h4; cases h4

/-- C29 over the wire: the box made from acceptable objects can be serialised; parsing the bytes gives one box, from
which the objects are recovered. -/
theorem arguments_cross_the_wire (U : Uni) (args : ArgList) (hn : (args.map Prod.fst).Nodup) (hw : WireNames args)
    (objects : List (Str × Obj)) (h : ∀ n c, (n, c) ∈ args → Acceptable c (given U objects n)) :
    ∃ box x b' r, objectsToStrings U objects args = .ok box ∧ serialize box = .ok x ∧ IsUtf8 x ∧
      parseString U x = .ok [b'] ∧ stringsToObjects (textBox b') args = .ok r ∧ Dict.keys r = args.map Prod.fst ∧
      ∀ n ∈ args.map Prod.fst, ∃ y, Dict.get? r n = some y ∧ Same ((given U objects n).getD .none) y := by
  obtain ⟨box, objs', tb, b1, b2, b3, b4, b5⟩ := wireTexts args hn (normalizeObjects U objects)
    (fun n c hm => by rw [get?_normalizeObjects]; exact h n c hm) hw
  obtain ⟨xs, bs', p1, p2, p3⟩ := parseString_boxes U [tb] (by simpa using b2)
  obtain ⟨box2, c1, c2⟩ := arguments_survive U args hn objects h
  have hbox : objectsToStrings U objects args = .ok box := by
    simp [objectsToStrings, b1, bind, Except.bind, pure, Except.pure]
  rw [hbox, Except.ok.injEq] at c1
  subst c1
  cases p1 with
  | @cons _ x _ xs1 px pn =>
    cases pn
    cases p2 with
    | @cons _ b' _ _ py pn =>
      cases pn
      obtain ⟨r, r1, r2, r3⟩ := c2 (textBox b') (fun n hn' => b5 b' py n hn')
      refine ⟨box, x, b', r, hbox, by rw [b4]; exact px, legal_isUtf8 tb b2 b3 x px, by simpa using p3, r1, r2, r3⟩

/-- Canonical names normalise to themselves. -/
theorem normalizeKey_canonical (U : Uni) (k : Str) (h1 : WireKey k) (h2 : CanonicalKey k) : normalizeKey U k = k := by
  have ha := h1.ascii
  unfold normalizeKey
  rw [U.lower_ascii k ha]
  rcases h2 with ⟨h2, h3⟩ | h2
  · have : replaceChar 45 95 (k.map asciiLower) = k := by
      unfold replaceChar
      rw [List.map_map]
      conv => rhs; rw [← List.map_id k]
      apply List.map_congr_left
      intro c hc
      obtain ⟨g1, g2⟩ := h2 c hc
      simp only [Function.comp, asciiLower, if_neg g1, if_neg g2, id]
    simp only [this, if_neg h3]
  · have : ∀ k ∈ keywords.map asciiTitle, (replaceChar 45 95 (k.map asciiLower)) ∈ keywords ∧
        asciiTitle (replaceChar 45 95 (k.map asciiLower)) = k := by decide
    obtain ⟨g1, g2⟩ := this k h2
    simp only [if_pos g1, g2]

theorem given_eq_get? (U : Uni) (d : List (Str × Obj)) (hwf : (d.map Prod.fst).Nodup)
    (hk : ∀ p ∈ d, normalizeKey U p.1 = p.1) (n : Str) : given U d n = Dict.get? d n := by
  unfold given
  have : d.filter (fun p => decide (normalizeKey U p.1 = n)) = d.filter fun p => decide (p.1 = n) := by
    apply List.filter_congr
    intro p hp
    rw [hk p hp]
  rw [this]
  clear this hk
  induction d with
  | nil => rfl
  | cons p d ih =>
    obtain ⟨k, v⟩ := p
    rw [List.map_cons, List.nodup_cons] at hwf
    rw [List.filter_cons, Dict.get?]
    by_cases hkn : k = n
    · subst hkn
      have : d.filter (fun p => decide (p.1 = k)) = [] := by
        rw [List.filter_eq_nil_iff]
        intro p hp
        simp only [decide_eq_true_eq]
        intro e
        exact hwf.1 (List.mem_map.2 ⟨p, hp, e⟩)
      simp [this]
    · simp only [hkn, decide_false, Bool.false_eq_true, if_false]
      exact ih hwf.2

/-- A dictionary that a `JuiceList` element can be: exactly the declared names, each with an object that survives (or
`None` if optional). -/
def FitsArgs (args : ArgList) (d : List (Str × Obj)) : Prop :=
  (d.map Prod.fst).Nodup ∧ (∀ k, k ∈ d.map Prod.fst ↔ k ∈ args.map Prod.fst) ∧
    ∀ n c, (n, c) ∈ args → ∃ x, Dict.get? d n = some x ∧ (Survives c x ∨ (c.optional = true ∧ x = .none))

/-- C28: every list of fitting dictionaries, the empty one included, survives `JuiceList`; sub-arguments may again be
lists of either kind. -/
theorem juiceList_survives (U : Uni) (args : ArgList) (hn : (args.map Prod.fst).Nodup) (hw : WireNames args)
    (ds : List (List (Str × Obj))) (h : ∀ d ∈ ds, FitsArgs args d) : Survives (juiceList U args) (.list (ds.map .dict)) := by
  have hone : ∀ d ∈ ds, ∃ box objs' tb, toBoxAll args ([], normalizeObjects U d) = .ok (box, objs') ∧ LegalBox tb ∧
      (∀ p ∈ tb, p.1 ≠ BODY) ∧ serialize box = Juice.serialize tb ∧
      ∀ b', SameBox tb b' → ∃ r, stringsToObjects (textBox b') args = .ok r ∧ Same (.dict d) (.dict r) := by
    intro d hd
    obtain ⟨f1, f2, f3⟩ := h d hd
    have hnk : ∀ p ∈ d, normalizeKey U p.1 = p.1 := by
      intro p hp
      have := hw p.1 ((f2 p.1).1 (List.mem_map.2 ⟨p, hp, rfl⟩))
      exact normalizeKey_canonical U _ this.1 this.2.1
    have hgiven := given_eq_get? U d f1 hnk
    have hacc : ∀ n c, (n, c) ∈ args → Acceptable c (given U d n) := by
      intro n c hm
      rw [hgiven]
      obtain ⟨x, g1, g2⟩ := f3 n c hm
      rcases g2 with g2 | ⟨g2, rfl⟩
      · exact .inl ⟨x, g1, g2⟩
      · exact .inr ⟨g2, .inr g1⟩
    obtain ⟨box, objs', tb, b1, b2, b3, b4, b5⟩ := wireTexts args hn (normalizeObjects U d)
      (fun n c hm => by rw [get?_normalizeObjects]; exact hacc n c hm) hw
    refine ⟨box, objs', tb, b1, b2, b3, b4, ?_⟩
    intro b' hb'
    obtain ⟨box2, c1, c2⟩ := arguments_survive U args hn d hacc
    have hbox : objectsToStrings U d args = .ok box := by
      simp [objectsToStrings, b1, bind, Except.bind, pure, Except.pure]
    rw [hbox, Except.ok.injEq] at c1
    subst c1
    obtain ⟨r, r1, r2, r3⟩ := c2 (textBox b') (fun n hn' => b5 b' hb' n hn')
    refine ⟨r, r1, .dict ?_⟩
    intro k
    by_cases hk : k ∈ args.map Prod.fst
    · obtain ⟨y, y1, y2⟩ := r3 k hk
      obtain ⟨⟨k', c⟩, hm, rfl⟩ := List.mem_map.1 hk
      obtain ⟨x, g1, -⟩ := f3 k' c hm
      simp only at y1 ⊢
      rw [hgiven, g1] at y2
      rw [y1, g1]
      exact .some y2
    · have h1 : Dict.get? d k = none := by
        rw [Dict.get?_eq_none_iff]; exact fun hm => hk ((f2 k).1 hm)
      have h2 : Dict.get? r k = none := by
        rw [Dict.get?_eq_none_iff, r2]; exact hk
      rw [h1, h2]; exact .none
  -- all the boxes
  have hall : ∃ tbs : List Box, List.Forall₂ (fun d tb => LegalBox tb ∧ (∀ p ∈ tb, p.1 ≠ BODY) ∧
      (∀ x, Juice.serialize tb = .ok x → juiceItem U args (.dict d) = .ok x) ∧
      ∀ b', SameBox tb b' → ∃ r, stringsToObjects (textBox b') args = .ok r ∧ Same (.dict d) (.dict r)) ds tbs := by
    clear h
    induction ds with
    | nil => exact ⟨[], .nil⟩
    | cons d ds ih =>
      obtain ⟨box, objs', tb, b1, b2, b3, b4, b5⟩ := hone d (by simp)
      obtain ⟨tbs, ht⟩ := ih (fun d hd => hone d (List.mem_cons_of_mem _ hd))
      refine ⟨tb :: tbs, .cons ⟨b2, b3, ?_, b5⟩ ht⟩
      intro x hx
      simp [juiceItem, objectsToStrings, b1, bind, Except.bind, pure, Except.pure, b4, hx]
  obtain ⟨tbs, htbs⟩ := hall
  have hlegal : ∀ tb ∈ tbs, LegalBox tb ∧ ∀ p ∈ tb, p.1 ≠ BODY := by
    clear hone h
    induction htbs with
    | nil => intro tb htb; cases htb
    | cons hp _ ih =>
      intro tb htb
      rcases List.mem_cons.1 htb with rfl | htb
      · exact ⟨hp.1, hp.2.1⟩
      · exact ih tb htb
  obtain ⟨xs, bs', p1, p2, p3⟩ := parseString_boxes U tbs (fun tb htb => (hlegal tb htb).1)
  have hutf : IsUtf8 xs.flatten := by
    apply IsUtf8.flatten
    clear p2 p3 hone h htbs
    induction p1 with
    | nil => intro b hb; cases hb
    | @cons tb x _ _ hp _ ih =>
      intro b hb
      rcases List.mem_cons.1 hb with rfl | hb
      · exact legal_isUtf8 tb (hlegal tb (by simp)).1 (hlegal tb (by simp)).2 _ hp
      · exact ih (fun tb htb => hlegal tb (List.mem_cons_of_mem _ htb)) b hb
  have henc : mapE (juiceItem U args) (ds.map .dict) = .ok xs := by
    apply mapE_of_forall₂
    rw [List.forall₂_map_left_iff]
    clear p2 p3 hutf hone h hlegal
    induction htbs generalizing xs with
    | nil => cases p1; exact .nil
    | cons hp _ ih =>
      cases p1 with
      | cons hx hxs => exact .cons (hp.2.2.1 _ hx) (ih _ hxs)
  have hdec : ∃ rs, mapE (fun b => stringsToObjects (textBox b) args) bs' = .ok rs ∧
      List.Forall₂ Same (ds.map .dict) (rs.map .dict) := by
    clear p1 p3 hutf henc hone h hlegal
    induction htbs generalizing bs' with
    | nil => cases p2; exact ⟨[], rfl, .nil⟩
    | cons hp _ ih =>
      cases p2 with
      | cons hb hbs =>
        obtain ⟨r, r1, r2⟩ := hp.2.2.2 _ hb
        obtain ⟨rs, s1, s2⟩ := ih _ hbs
        exact ⟨r :: rs, by simp [mapE, r1, s1, bind, Except.bind, pure, Except.pure], .cons r2 s2⟩
  obtain ⟨rs, d1, d2⟩ := hdec
  obtain ⟨t, t1, t2⟩ := hutf
  refine ⟨.raw xs.flatten, t, ?_, t2, t1, ⟨.list (rs.map .dict), ?_, .list d2⟩, ⟨.list (rs.map .dict), ?_, .list d2⟩⟩
  · simp [juiceList, Obj.iter, henc, bind, Except.bind, pure, Except.pure]
  · simp [juiceList, Val.bytes, p3, d1, bind, Except.bind, pure, Except.pure]
  · simp [juiceList, Val.bytes, ensureBinary, t2, p3, d1, bind, Except.bind, pure, Except.pure]

/-! ## C30: a command missing a required argument is never sent -/

/-- C30: the constructor raises `RuntimeError` exactly when some required argument is absent. -/
theorem commandInit_raises (U : Uni) (arguments : ArgList) (kw : List (Str × Obj)) :
    commandInit U arguments kw = .error .runtimeError ↔
      ∃ n c, (n, c) ∈ arguments ∧ c.optional = false ∧ ∀ p ∈ kw, normalizeKey U p.1 ≠ normalizeKey U n := by
  have : commandInit U arguments kw = .error .runtimeError ↔ forgotten U arguments kw ≠ [] := by
    unfold commandInit
    split
    · rename_i h; simp [h]
    · rename_i h; simp [h]
  rw [this]
  unfold forgotten
  simp only [ne_eq, List.map_eq_nil_iff, List.filter_eq_nil_iff]
  push Not
  constructor
  · rintro ⟨⟨n, c⟩, hm, hc⟩
    simp only [Bool.and_eq_true, decide_eq_true_eq, Bool.not_eq_true'] at hc
    refine ⟨n, c, hm, hc.2, ?_⟩
    intro p hp e
    exact hc.1 (List.mem_map.2 ⟨p, hp, e⟩)
  · rintro ⟨n, c, hm, hc, hk⟩
    refine ⟨(n, c), hm, ?_⟩
    simp only [Bool.and_eq_true, decide_eq_true_eq, Bool.not_eq_true']
    refine ⟨?_, hc⟩
    intro hmem
    obtain ⟨p, hp, e⟩ := List.mem_map.1 hmem
    exact hk p hp e

/-- C30: otherwise it succeeds with the keywords as given. -/
theorem commandInit_ok (U : Uni) (arguments : ArgList) (kw : List (Str × Obj)) :
    commandInit U arguments kw = .error .runtimeError ∨ commandInit U arguments kw = .ok kw := by
  unfold commandInit
  split
  · exact .inr rfl
  · exact .inl rfl

/-- C30: and `do` never makes a box without a required argument. -/
theorem no_box_without_required (U : Uni) (args : ArgList) (objects : List (Str × Obj)) (box : Dict Str Val)
    (h : objectsToStrings U objects args = .ok box) (n : Str) (c : Codec) (hm : (n, c) ∈ args)
    (ho : c.optional = false) : ∃ x, given U objects n = some x := by
  unfold objectsToStrings at h
  cases hb : toBoxAll args ([], normalizeObjects U objects) with
  | error e => simp [hb, bind, Except.bind] at h
  | ok st =>
    obtain ⟨x, hx⟩ := toBoxAll_required args _ st hb n c hm ho
    exact ⟨x, by rw [← get?_normalizeObjects]; exact hx⟩

/-! ### Concrete cases -/

/-- `[('a', Integer()), ('b', String(optional=True)), ('c', JuiceList([('d', Boolean())]))]` -/
def demoArgs : ArgList :=
  [([97], integer Uni.ascii false), ([98], string true), ([99], juiceList Uni.ascii [([100], boolean false)])]

theorem wire1 (c : Nat) (h : c ∈ [97, 98, 99, 100]) : WireKey [c] ∧ CanonicalKey [c] ∧ [c] ≠ LENGTH ∧ [c] ≠ BODY := by
  have hc : c < 128 ∧ ¬ (65 ≤ c ∧ c ≤ 90) ∧ c ≠ 45 ∧ c ≠ 32 := by
    simp at h; omega
  refine ⟨⟨?_, ?_, ?_, ?_⟩, .inl ⟨?_, ?_⟩, by simp [LENGTH], by simp [BODY]⟩
  · intro d hd; simp at hd; omega
  · intro hi; have := hi.length_le; simp at this
  · intro hi; have := hi.length_le; simp at this
  · simp; omega
  · intro d hd; simp at hd; subst hd; exact ⟨hc.2.1, hc.2.2.1⟩
  · have : ∀ k ∈ keywords, k.length ≠ 1 := by decide
    exact fun hm => this _ hm rfl

/-- `{'A': -5, 'c': [{'d': True}, {'d': False}]}`: the key `A` is normalised, `b` is left out, `c` is nested. -/
example : ∃ box x b' r, objectsToStrings Uni.ascii
      [([65], .int (-5)), ([99], .list [.dict [([100], .bool true)], .dict [([100], .bool false)]])] demoArgs = .ok box ∧
      serialize box = .ok x ∧ IsUtf8 x ∧ parseString Uni.ascii x = .ok [b'] ∧
      stringsToObjects (textBox b') demoArgs = .ok r ∧ Dict.keys r = [[97], [98], [99]] ∧
      ∀ n ∈ demoArgs.map Prod.fst, ∃ y, Dict.get? r n = some y ∧
        Same ((given Uni.ascii [([65], .int (-5)),
          ([99], .list [.dict [([100], .bool true)], .dict [([100], .bool false)]])] n).getD .none) y := by
  apply arguments_cross_the_wire
  · decide
  · intro n hn
    simp only [demoArgs, List.map_cons, List.map_nil, List.mem_cons, List.not_mem_nil, or_false] at hn
    rcases hn with rfl | rfl | rfl <;> exact wire1 _ (by simp)
  · intro n c hm
    simp only [demoArgs, List.mem_cons, List.not_mem_nil, or_false, Prod.mk.injEq] at hm
    rcases hm with ⟨rfl, rfl⟩ | ⟨rfl, rfl⟩ | ⟨rfl, rfl⟩
    · exact .inl ⟨.int (-5), rfl, integer_survives _ _ _⟩
    · exact .inr ⟨rfl, .inl rfl⟩
    · refine .inl ⟨.list ([[([100], .bool true)], [([100], .bool false)]].map .dict), rfl, ?_⟩
      apply juiceList_survives
      · decide
      · intro n hn; simp at hn; subst hn; exact wire1 _ (by simp)
      · intro d hd
        simp only [List.mem_cons, List.not_mem_nil, or_false] at hd
        rcases hd with rfl | rfl
        all_goals
          refine ⟨by simp, by simp, ?_⟩
          intro n c hm
          simp at hm
          obtain ⟨rfl, rfl⟩ := hm
          exact ⟨_, rfl, .inl (boolean_survives _ _)⟩

example : commandInit Uni.ascii demoArgs [([65], .int 1)] = .error .runtimeError := by rfl
example : commandInit Uni.ascii demoArgs [([65], .int 1), ([99], .list [])] = .ok [([65], .int 1), ([99], .list [])] := by rfl

/-- C30, where the constructor is satisfied but nothing can be sent: a declared name that is not in normal form
(`'A'`) is matched by the constructor and never found by `objectsToStrings`. -/
theorem unnormalised_name_fails : commandInit Uni.ascii [([65], string false)] [([65], .str [])] = .ok [([65], .str [])] ∧
    objectsToStrings Uni.ascii [([65], .str [])] [([65], string false)] = .error .keyError :=
  ⟨rfl, rfl⟩

end Verif.JuiceArgs
