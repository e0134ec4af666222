import Verif.Model.Unrepr
import Verif.Py.LiteralRead
import Verif.Props.Structlike
/-!
# C127: what is written with `repr` is read back

Plain data (`Plain` of `Py/LiteralRead`) is rebuilt by `unrepr` from its `repr`, unless its brackets are more than 200 deep; the
`repr`s of case-insensitive strings, of juice boxes and of records hold everything that is in them.
-/
namespace Verif.Unrepr
open Verif.Py Verif.Py.Literal

/-- An identifier. -/
def Ident (n : Str) : Prop := n ≠ [] ∧ ∀ c ∈ n, isIdent c = true

/-- **C127.** `unrepr` of the `repr` of plain data is the data, in all its parts and in the order of its dictionaries; if
more than 200 brackets are open at once, it is an error. -/
theorem unrepr_repr (printable : Nat → Bool) {v : Val} (h : Plain v) :
    unrepr (repr printable v) = if depth v ≤ 200 then some v else none := by
  have e := reads printable h 0 ((repr printable v).length + 1) [] (by intro c t e; cases e) (by decide) (by omega)
  rw [List.append_nil] at e
  rw [unrepr, literalEval, e, Nat.zero_add]
  show _ = if depth v ≤ maxLevel then _ else _
  by_cases hd : depth v ≤ maxLevel
  · rw [if_pos hd, if_pos hd]; simp [skipSpace]
  · rw [if_neg hd, if_neg hd]

/-- **C127.** Different data never have the same `repr`. -/
theorem repr_injective (printable : Nat → Bool) {v w : Val} (hv : Plain v) (hw : Plain w) (dv : depth v ≤ 200) (dw : depth w ≤ 200)
    (h : repr printable v = repr printable w) : v = w := by
  have e := unrepr_repr printable hv
  rw [h, unrepr_repr printable hw, if_pos dv, if_pos dw] at e
  exact (Option.some.inj e).symm

/-- A value in a list in a list … -/
def nest : Nat → Val → Val
  | 0, v => v
  | n + 1, v => .list [nest n v]

theorem nest_plain (n : Nat) {v : Val} (h : Plain v) : Plain (nest n v) := by
  induction n with
  | zero => exact h
  | succ n ih => exact .list _ (by simpa using ih)

theorem nest_depth (n : Nat) (v : Val) : depth (nest n v) = n + depth v := by
  induction n with
  | zero => simp [nest]
  | succ n ih => simp only [nest, depth, depths, ih]; omega

/-- **C127.** A list 201 deep can be written, and not read. -/
theorem unrepr_deep_fails (printable : Nat → Bool) :
    unrepr (repr printable (nest 201 .none)) = none ∧ unrepr (repr printable (nest 200 .none)) = some (nest 200 .none) := by
  rw [unrepr_repr printable (nest_plain 201 .none), unrepr_repr printable (nest_plain 200 .none), nest_depth, nest_depth]
  simp [depth]

/-- **C127.** Infinities and what is not a number can be written (as `inf`, `-inf`, `nan`), and not read: names are no literals. -/
theorem unrepr_inf_fails (printable : Nat → Bool) :
    unrepr (repr printable (.float (.inf false))) = none ∧ unrepr (repr printable (.float (.inf true))) = none ∧
      unrepr (repr printable (.float .nan)) = none := by
  refine ⟨?_, ?_, ?_⟩ <;> rw [Literal.repr] <;> decide +kernel

/-- **C127.** Parentheses around a value do not change it. -/
theorem unrepr_parens (printable : Nat → Bool) {v : Val} (h : Plain v) (hd : depth v < 200) :
    unrepr (40 :: Literal.repr printable v ++ [41]) = some v := by
  have e : 40 :: Literal.repr printable v ++ [41] = 40 :: (reprItems printable [v] ++ 41 :: []) := by simp [reprItems]
  rw [unrepr, literalEval, e, readVal, skipSpace_cons _ (by decide)]
  simp only
  rw [if_pos trivial, if_neg (by decide), reads_items printable [v] (by simpa using h) (by simpa using reads printable h) 1 _ 41 []
    (.inl rfl) (by decide) (by simp), if_pos (show 1 + depths [v] ≤ maxLevel by simp only [depths]; show _ ≤ 200; omega)]
  simp [parens, skipSpace]

/-- **C127.** Of equal keys in a text the first stays, with the last value. -/
theorem unrepr_equal_keys (printable : Nat → Bool) {k l v w : Val} (hk : Plain k) (hl : Plain l) (hv : Plain v) (hw : Plain w)
    (hhk : hashable k = true) (hhl : hashable l = true) (hd : depth (.dict [(k, v), (l, w)]) ≤ 200) (h : keyEq k l = true) :
    unrepr (Literal.repr printable (.dict [(k, v), (l, w)])) = some (.dict [(k, w)]) := by
  have e : Literal.repr printable (.dict [(k, v), (l, w)]) = 123 :: (reprPairs printable [(k, v), (l, w)] ++ 125 :: []) := by
    rw [Literal.repr]; rfl
  rw [unrepr, literalEval, e, readVal, skipSpace_cons _ (by decide)]
  simp only
  rw [if_neg (by decide), if_neg (by decide), if_pos trivial, if_neg (by decide),
    reads_pairs printable [(k, v), (l, w)] (by simp [hk, hl]) (by simp [hv, hw]) (by simp [reads printable hk, reads printable hl])
      (by simp [reads printable hv, reads printable hw]) 1 _ [] (by decide) (by simp),
    if_pos (show 0 + 1 + depthPairs [(k, v), (l, w)] ≤ maxLevel by rw [depth] at hd; show _ ≤ 200; omega)]
  simp [build, hhk, hhl, put, h, skipSpace]

/-! ## Calls -/

theorem ident_split {n : Str} (h : ∀ c ∈ n, isIdent c = true) {c : Nat} (hc : isIdent c = false) (t : Str) :
    (n ++ c :: t).takeWhile isIdent = n ∧ (n ++ c :: t).dropWhile isIdent = c :: t := by
  rw [List.takeWhile_append_of_pos h, List.dropWhile_append_of_pos h]
  simp [List.takeWhile, List.dropWhile, hc]

theorem readCall_eq {n : Str} (h : ∀ c ∈ n, isIdent c = true) (t : Str) :
    readCall (n ++ 40 :: t) = (readArgs t).map fun a => (n, a) := by
  obtain ⟨h1, h2⟩ := ident_split h (c := 40) (by decide) t
  rw [readCall, h2]
  simp only [h1]

theorem closed_reads (printable : Nat → Bool) {v : Val} (h : Plain v) (hd : depth v < 200) (fuel : Nat)
    (hf : (repr printable v).length < fuel) : closed (readVal fuel 1 (repr printable v ++ [41])) = some v := by
  rw [reads printable h 1 fuel [41] (ends_cons _ (by decide)) (by decide) hf,
    if_pos (show 1 + depth v ≤ maxLevel by show _ ≤ 200; omega)]
  simp [closed, skipSpace]

/-- **C127.** `repr(Caseless(s))` is a call of the class with the very string that is wrapped, in its own case. -/
theorem caseless_repr (printable : Nat → Bool) {cls : Str} (hc : Ident cls) {v : Val} (h : Plain v)
    (hs : (∃ s, v = .str s) ∨ ∃ s, v = .bytes s) : readCall (caselessRepr printable cls v) = some (cls, .one v) := by
  have hd : depth v < 200 := by
    rcases hs with ⟨s, rfl⟩ | ⟨s, rfl⟩ <;> simp [depth]
  have hh : ∀ t : Str, (repr printable v ++ t).take 2 ≠ [42, 42] ∧
      ¬ ((repr printable v ++ t).head? = some 41 ∨
        ((repr printable v ++ t).takeWhile isIdent ≠ [] ∧ ((repr printable v ++ t).dropWhile isIdent).head? = some 61)) := by
    intro t
    rcases hs with ⟨s, rfl⟩ | ⟨s, rfl⟩
    · rw [Literal.repr, Literal.reprStr]
      rcases quoteOf_quote s with q | q <;> rw [q] <;> simp [List.takeWhile, List.dropWhile, isIdent, isDigit]
    · rw [Literal.repr, reprBytes]
      rcases quoteOf_quote s with q | q <;> rw [q] <;> simp [List.takeWhile, List.dropWhile, isIdent, isDigit]
  rw [caselessRepr, List.append_assoc, List.cons_append, readCall_eq hc.2, readArgs, if_neg (hh _).1, if_neg (hh _).2,
    closed_reads printable h hd _ (by simp; omega)]
  rfl

/-- **C127.** The `repr` of a box that switches the connection shows what kind it is and all keys and values, in order. -/
theorem box_repr (printable : Nat → Bool) (k : BoxKind) {items : List (Val × Val)} (h : Plain (.dict items))
    (hd : depth (.dict items) < 200) : readCall (boxRepr printable k items) = some (k.name, .star items) := by
  have e : boxRepr printable k items = k.name ++ 40 :: 42 :: 42 :: (repr printable (.dict items) ++ [41]) := by
    simp [boxRepr]
  rw [e, readCall_eq (by cases k <;> decide), readArgs, if_pos (by simp), List.drop_succ_cons, List.drop_succ_cons, List.drop_zero,
    closed_reads printable h hd _ (by simp; omega)]
  rfl

theorem box_name_injective {k l : BoxKind} (h : k.name = l.name) : k = l := by
  revert h; cases k <;> cases l <;> decide

/-- **C127.** Boxes of different kinds, or with different contents, never look the same. -/
theorem box_repr_injective (printable : Nat → Bool) {k l : BoxKind} {a b : List (Val × Val)} (ha : Plain (.dict a)) (hb : Plain (.dict b))
    (da : depth (.dict a) < 200) (db : depth (.dict b) < 200) (h : boxRepr printable k a = boxRepr printable l b) : k = l ∧ a = b := by
  have e := box_repr printable k ha da
  rw [h, box_repr printable l hb db] at e
  simp only [Option.some.injEq, Prod.mk.injEq, Args.star.injEq] at e
  exact ⟨box_name_injective e.1.symm, e.2.symm⟩

theorem isIdent_ne {c : Nat} (h : isIdent c = true) : c ≠ 41 ∧ c ≠ 42 ∧ c ≠ 32 ∧ c ≠ 9 ∧ c ≠ 12 ∧ c ≠ 61 := by
  refine ⟨?_, ?_, ?_, ?_, ?_, ?_⟩ <;> rintro rfl <;> revert h <;> decide

theorem readKws_space (fuel : Nat) (s : Str) : readKws fuel (32 :: s) = readKws fuel s := by
  cases fuel with
  | zero => rfl
  | succ f => rw [readKws, readKws, skipSpace_space]

theorem readKws_reads (printable : Nat → Bool) (l : List (Str × Val)) (hn : ∀ f ∈ l, Ident f.1) (hp : ∀ f ∈ l, Plain f.2)
    (hd : ∀ f ∈ l, depth f.2 < 200) (fuel : Nat) (hf : l.length < fuel) :
    readKws fuel (reprFields printable l ++ [41]) = some (l, []) := by
  induction l generalizing fuel with
  | nil =>
    obtain ⟨f, rfl⟩ : ∃ f, fuel = f + 1 := ⟨fuel - 1, by omega⟩
    rw [readKws, reprFields, List.nil_append, skipSpace_cons _ (by decide)]
    simp
  | cons x l ih =>
    obtain ⟨f, rfl⟩ : ∃ f, fuel = f + 1 := ⟨fuel - 1, by omega⟩
    obtain ⟨n, v⟩ := x
    obtain ⟨hne, hid⟩ : Ident n := hn (n, v) (by simp)
    have hv : Plain v := hp (n, v) (by simp)
    have hdv : depth v < 200 := hd (n, v) (by simp)
    obtain ⟨c, n', rfl⟩ := List.exists_cons_of_ne_nil hne
    have hc := isIdent_ne (hid c (by simp))
    have key : ∀ rest, Ends rest → ∀ t, t = repr printable v ++ rest →
        readVal (t.length + 1) 1 t = some (v, rest) := by
      rintro rest hr t rfl
      rw [reads printable hv 1 _ rest hr (by decide) (by simp; omega), if_pos (show 1 + depth v ≤ maxLevel by show _ ≤ 200; omega)]
    have step : ∀ rest, Ends rest → readKws (f + 1) (c :: n' ++ 61 :: (repr printable v ++ rest)) =
        (match skipSpace rest with
          | [] => none
          | d :: u => if d = 41 then some ([(c :: n', v)], u)
              else if d = 44 then (readKws f u).map fun x => ((c :: n', v) :: x.1, x.2) else none) := by
      intro rest hr
      obtain ⟨h1, h2⟩ := ident_split hid (c := 61) (by decide) (repr printable v ++ rest)
      rw [readKws]
      rw [show skipSpace (c :: n' ++ 61 :: (repr printable v ++ rest)) = c :: n' ++ 61 :: (repr printable v ++ rest) from
        skipSpace_cons _ ⟨hc.2.2.1, hc.2.2.2.1, hc.2.2.2.2.1⟩]
      simp only [h1, h2, key rest hr _ rfl]
      rw [if_neg (by simp [hc.1]), if_neg (by simp)]
      rfl
    cases l with
    | nil =>
      have e : reprFields printable [(c :: n', v)] ++ [41] = c :: n' ++ 61 :: (repr printable v ++ [41]) := by
        simp [reprFields]
      rw [e, step [41] (ends_cons _ (by decide)), skipSpace_cons _ (by decide)]
      simp
    | cons y l =>
      have e : reprFields printable ((c :: n', v) :: y :: l) ++ [41] =
          c :: n' ++ 61 :: (repr printable v ++ 44 :: 32 :: (reprFields printable (y :: l) ++ [41])) := by
        rw [reprFields]; simp
      rw [e, step _ (ends_cons _ (by decide)), skipSpace_cons _ (by decide)]
      simp only [show ¬ ((44 : Nat) = 41) by decide, if_false, if_true]
      rw [readKws_space, ih (fun g hg => hn g (by simp [hg])) (fun g hg => hp g (by simp [hg])) (fun g hg => hd g (by simp [hg])) f
        (by simp at hf ⊢; omega)]
      rfl

theorem reprFields_length (printable : Nat → Bool) (l : List (Str × Val)) : l.length ≤ (reprFields printable l).length := by
  induction l with
  | nil => simp
  | cons x l ih => rw [reprFields]; simp; omega

/-- **C127.** The `repr` of a record is a call of its class with all its attributes as keywords, in order. -/
theorem record_repr (printable : Nat → Bool) {cls : Str} (hc : Ident cls) (l : List (Str × Val)) (hn : ∀ f ∈ l, Ident f.1)
    (hp : ∀ f ∈ l, Plain f.2) (hd : ∀ f ∈ l, depth f.2 < 200) :
    readCall (recordRepr printable cls l) = some (cls, .kws l) := by
  have e : recordRepr printable cls l = cls ++ 40 :: (reprFields printable l ++ [41]) := by simp [recordRepr]
  rw [e, readCall_eq hc.2, readArgs]
  have hk := readKws_reads printable l hn hp hd ((reprFields printable l ++ [41]).length + 1)
    (by have := reprFields_length printable l; simp; omega)
  rw [hk]
  cases l with
  | nil => simp [reprFields]
  | cons x l =>
    obtain ⟨n, v⟩ := x
    obtain ⟨hne, hid⟩ : Ident n := hn (n, v) (by simp)
    obtain ⟨c, n', rfl⟩ := List.exists_cons_of_ne_nil hne
    have hcc := isIdent_ne (hid c (by simp))
    obtain ⟨t, ht⟩ : ∃ t, reprFields printable ((c :: n', v) :: l) ++ [41] = c :: n' ++ 61 :: t := ⟨_, by rw [reprFields]; simp; rfl⟩
    obtain ⟨h1, h2⟩ := ident_split hid (c := 61) (by decide) t
    rw [ht, if_neg (by simp [hcc.2.1]), if_pos (by rw [h1, h2]; simp)]
    rfl

theorem dict_ext {d e : Dict Str Val} (hd : Dict.WF d) (hk : Dict.keys d = Dict.keys e)
    (h : ∀ n ∈ Dict.keys d, Dict.get? d n = Dict.get? e n) : d = e := by
  have he : Dict.WF e := by unfold Dict.WF at hd ⊢; rwa [← hk]
  unfold Dict.keys at hk
  apply List.ext_getElem
  · simpa using congrArg List.length hk
  · intro i h1 h2
    have hki : d[i].1 = e[i].1 := by
      have := List.getElem_of_eq hk (i := i) (by simpa using h1)
      simpa using this
    have g1 := Dict.get?_of_mem hd (k := d[i].1) (v := d[i].2) (List.getElem_mem h1)
    have g2 := Dict.get?_of_mem he (k := e[i].1) (v := e[i].2) (List.getElem_mem h2)
    rw [h _ (List.mem_map.2 ⟨_, List.getElem_mem h1, rfl⟩), hki, g2] at g1
    exact Prod.ext hki (Option.some.inj g1).symm

/-- **C127.** Evaluating the `repr` of a record makes a record with the same attributes. -/
theorem record_rebuilt (printable : Nat → Bool) {cls : Str} (hc : Ident cls) (c : Structlike.RecordClass Val) (hnd : c.names.Nodup)
    (hdef : c.defaults.length ≤ c.names.length) (attrs : Dict Str Val) (ha : Dict.keys attrs = c.names) (hn : ∀ n ∈ c.names, Ident n)
    (hp : ∀ f ∈ attrs, Plain f.2) (hd : ∀ f ∈ attrs, depth f.2 < 200) :
    ∃ kw, readCall (recordRepr printable cls attrs) = some (cls, .kws kw) ∧ Structlike.init c [] kw = .ok attrs := by
  have hwf : Dict.WF attrs := by unfold Dict.WF; rwa [ha]
  refine ⟨attrs, record_repr printable hc attrs
    (fun f hf => hn _ (by rw [← ha]; exact List.mem_map.2 ⟨f, hf, rfl⟩)) hp hd, ?_⟩
  have hb : ∀ n ∈ c.names, Dict.get? attrs n ≠ none := by
    intro n hm h0
    rw [Dict.get?_eq_none_iff, ha] at h0
    exact h0 hm
  have hbv : ∀ i n, n ∈ c.names → Structlike.boundValue c [] attrs i n = Dict.get? attrs n := by
    intro i n hm
    obtain ⟨v, hv⟩ := Option.ne_none_iff_exists'.1 (hb n hm)
    simp [Structlike.boundValue, hv]
  obtain ⟨a, h1, h2, h3⟩ := Structlike.init_ok c hnd hdef [] attrs hwf
    ⟨by simp, by intro i n _ h; simp at h, fun i n h => by rw [hbv i n (List.mem_of_getElem? h)]; exact hb n (List.mem_of_getElem? h),
      fun n hm => by rwa [ha] at hm⟩
  rw [h1]
  congr 1
  apply dict_ext
  · unfold Dict.WF; rwa [h2]
  · rw [h2, ha]
  · intro n hm
    rw [h2] at hm
    obtain ⟨i, hi⟩ := List.getElem?_of_mem hm
    rw [h3 i n hi, hbv i n hm]

/-! ## Examples -/

/-- Like the test: `{'x': ['bob', []], 10: (1, {}, 'two'), (3, 4): 5}`. -/
def sample : Val := .dict [(.str [120], .list [.str [98, 111, 98], .list []]),
  (.int 10, .tuple [.int 1, .dict [], .str [116, 119, 111]]), (.tuple [.int 3, .int 4], .int 5)]

theorem sample_plain : Plain sample := by
  refine .dict _ ?_ ?_ ?_ (.cons ?_ (.cons ?_ (.cons (by simp) .nil)))
  · simp only [List.mem_cons, List.not_mem_nil, or_false, forall_eq_or_imp, forall_eq]
    refine ⟨.str _ (by decide), .int _, .tuple _ ?_⟩
    simp only [List.mem_cons, List.not_mem_nil, or_false, forall_eq_or_imp, forall_eq]
    exact ⟨.int _, .int _⟩
  · simp only [List.mem_cons, List.not_mem_nil, or_false, forall_eq_or_imp, forall_eq]
    refine ⟨.list _ ?_, .tuple _ ?_, .int _⟩
    · simp only [List.mem_cons, List.not_mem_nil, or_false, forall_eq_or_imp, forall_eq]
      exact ⟨.str _ (by decide), .list _ (by simp)⟩
    · simp only [List.mem_cons, List.not_mem_nil, or_false, forall_eq_or_imp, forall_eq]
      exact ⟨.int _, .dict _ (by simp) (by simp) (by simp) (by simp), .str _ (by decide)⟩
  · simp [hashable, hashables]
  · simp only [List.mem_cons, List.not_mem_nil, or_false, forall_eq_or_imp, forall_eq]
    exact ⟨by rw [keyEq] <;> simp [numOf], by rw [keyEq] <;> simp [numOf]⟩
  · simp only [List.mem_cons, List.not_mem_nil, or_false, forall_eq_or_imp, forall_eq]
    rw [keyEq] <;> simp [numOf]

example : unrepr (repr (fun _ => false) sample) = some sample := by
  rw [unrepr_repr _ sample_plain, if_pos (by decide)]

/-- The texts themselves: `{'x': ['bob', []]}` and so on. -/
example : repr (fun _ => false) (.tuple [.str [39, 34, 92, 10, 233], .float (.fin true (5 / 2)), .bool true]) =
    "('\\'\"\\\\\\n\\xe9', -2.5, True)".toList.map Char.toNat := by
  simp only [Literal.repr, reprItems]; decide +kernel

/-- Calls and names are not evaluated. -/
example : unrepr ("f(1)".toList.map Char.toNat) = none ∧ unrepr ("[x]".toList.map Char.toNat) = none := by
  constructor <;> decide +kernel

example : caselessRepr (fun _ => false) ("Caseless".toList.map Char.toNat) (.str ("Eggs and Spam".toList.map Char.toNat)) =
    "Caseless('Eggs and Spam')".toList.map Char.toNat := by
  simp only [caselessRepr, Literal.repr]; decide +kernel

example : boxRepr (fun _ => false) .tls [(.str [120], .str [49])] = "TLS(**{'x': '1'})".toList.map Char.toNat := by
  simp only [boxRepr, Literal.repr, reprPairs, reprPair]; decide +kernel

example : recordRepr (fun _ => false) [65] [([120], .int 1), ([121], .none)] = "A(x=1, y=None)".toList.map Char.toNat := by
  simp only [recordRepr, reprFields, Literal.repr]; decide +kernel

/-- `{1: None, True: False}` is `{1: False}`. -/
example : unrepr (Literal.repr (fun _ => false) (.dict [(.int 1, .none), (.bool true, .bool false)])) =
    some (.dict [(.int 1, .bool false)]) :=
  unrepr_equal_keys _ (.int 1) (.bool true) .none (.bool false) (by simp [hashable]) (by simp [hashable])
    (by simp [depth, depthPairs, depthPair]) (by rw [keyEq] <;> simp [numOf])

end Verif.Unrepr
