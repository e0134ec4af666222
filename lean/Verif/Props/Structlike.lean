import Verif.Model.Structlike
import Verif.Lemmas.Str
import Mathlib.Tactic.ByContra
import Mathlib.Data.List.Nodup
/-!
# C49, C50 — `record` and its initialiser
-/
namespace Verif.Structlike
open Verif.Py

/-! ## C50: definitions -/

theorem map_fst_zip_take {A B : Type} (l : List A) (m : List B) : (l.zip m).map Prod.fst = l.take m.length := by
  induction l generalizing m with
  | nil => simp
  | cons a l ih => cases m with
    | nil => simp
    | cons b m => simp [ih]

theorem defaultsLoop_nonempty {V : Type} (ns : List Name) (kw : Dict Name V) (hwf : Dict.WF kw) (ds : List V) (hds : ds ≠ [])
    (r : Dict Name V × List V) :
    defaultsLoop ns kw ds = .ok r ↔
      ns.Nodup ∧ (∀ n ∈ ns, n ∈ Dict.keys kw) ∧
      r.2 = ds ++ ns.filterMap (Dict.get? kw) ∧ r.1 = ns.foldl Dict.erase kw := by
  induction ns generalizing kw ds with
  | nil =>
    simp only [defaultsLoop, List.nodup_nil, List.not_mem_nil, false_implies, implies_true,
      List.filterMap_nil, List.append_nil, List.foldl_nil, true_and, Except.ok.injEq]
    constructor
    · rintro rfl; exact ⟨rfl, rfl⟩
    · rintro ⟨h1, h2⟩; cases r; simp_all
  | cons n ns ih =>
    simp only [defaultsLoop]
    cases hg : Dict.get? kw n with
    | none =>
      have hn := (Dict.get?_eq_none_iff kw n).1 hg
      simp only [List.isEmpty_eq_false_iff.2 hds, if_false, Bool.false_eq_true]
      constructor
      · intro h; cases h
      · rintro ⟨-, h, -⟩; exact absurd (h n (by simp)) hn
    | some d =>
      have hn : n ∈ Dict.keys kw := by
        by_contra hc; rw [(Dict.get?_eq_none_iff kw n).2 hc] at hg; cases hg
      simp only []
      rw [ih _ (hwf.erase n) _ (by simp)]
      have hkeys : ∀ m, m ∈ Dict.keys (Dict.erase kw n) ↔ m ∈ Dict.keys kw ∧ m ≠ n := by
        exact fun m => Dict.mem_keys_erase hwf n m
      rw [List.nodup_cons]
      have hfm : n ∉ ns → ns.filterMap (Dict.get? (Dict.erase kw n)) = ns.filterMap (Dict.get? kw) := by
        intro hnn
        apply List.filterMap_congr
        intro m hm
        exact Dict.get?_erase_other kw n m (fun e => hnn (e ▸ hm))
      constructor
      · rintro ⟨h1, h2, h3, h4⟩
        have hnn : n ∉ ns := fun hm => ((hkeys n).1 (h2 n hm)).2 rfl
        refine ⟨⟨hnn, h1⟩, ?_, ?_, h4⟩
        · intro m hm
          rcases List.mem_cons.1 hm with e | hm
          · subst e; exact hn
          · exact ((hkeys m).1 (h2 m hm)).1
        · rw [h3, hfm hnn, List.filterMap_cons, hg]; simp
      · rintro ⟨⟨h1, h1'⟩, h2, h3, h4⟩
        refine ⟨h1', ?_, ?_, h4⟩
        · intro m hm
          exact (hkeys m).2 ⟨h2 m (List.mem_cons_of_mem _ hm), fun e => h1 (e ▸ hm)⟩
        · rw [h3, hfm h1, List.filterMap_cons, hg]; simp

theorem defaultsLoop_split {V : Type} (ns : List Name) (kw : Dict Name V) (hwf : Dict.WF kw) :
    ∃ req opt, ns = req ++ opt ∧ (∀ n ∈ req, n ∉ Dict.keys kw) ∧
      (∀ m, opt.head? = some m → m ∈ Dict.keys kw) ∧
      ∀ r, (defaultsLoop ns kw [] = .ok r ↔
        (opt.Nodup ∧ (∀ n ∈ opt, n ∈ Dict.keys kw) ∧ r.2 = opt.filterMap (Dict.get? kw) ∧
          r.1 = opt.foldl Dict.erase kw)) := by
  induction ns with
  | nil =>
    refine ⟨[], [], rfl, by simp, by simp, ?_⟩
    intro r
    simp only [defaultsLoop, Except.ok.injEq]
    constructor
    · rintro rfl; simp
    · rintro ⟨-, -, h1, h2⟩; cases r; simp_all
  | cons n ns ih =>
    cases hg : Dict.get? kw n with
    | none =>
      obtain ⟨req, opt, h1, h2, h3, h4⟩ := ih
      refine ⟨n :: req, opt, by simp [h1], ?_, h3, ?_⟩
      · intro m hm
        rcases List.mem_cons.1 hm with e | hm
        · subst e; exact (Dict.get?_eq_none_iff kw m).1 hg
        · exact h2 m hm
      · intro r
        simp only [defaultsLoop, hg, List.isEmpty_nil, if_true]
        exact h4 r
    | some d =>
      have hn : n ∈ Dict.keys kw := by
        by_contra hc; rw [(Dict.get?_eq_none_iff kw n).2 hc] at hg; cases hg
      refine ⟨[], n :: ns, rfl, by simp, by simp [hn], ?_⟩
      intro r
      simp only [defaultsLoop, hg, List.nil_append]
      rw [defaultsLoop_nonempty _ _ (hwf.erase n) _ (by simp)]
      have hkeys : ∀ m, m ∈ Dict.keys (Dict.erase kw n) ↔ m ∈ Dict.keys kw ∧ m ≠ n := by
        exact fun m => Dict.mem_keys_erase hwf n m
      rw [List.nodup_cons]
      have hfm : n ∉ ns → ns.filterMap (Dict.get? (Dict.erase kw n)) = ns.filterMap (Dict.get? kw) := by
        intro hnn
        apply List.filterMap_congr
        intro m hm
        exact Dict.get?_erase_other kw n m (fun e => hnn (e ▸ hm))
      constructor
      · rintro ⟨h1, h2, h3, h4⟩
        have hnn : n ∉ ns := fun hm => ((hkeys n).1 (h2 n hm)).2 rfl
        refine ⟨⟨hnn, h1⟩, ?_, ?_, h4⟩
        · intro m hm
          rcases List.mem_cons.1 hm with e | hm
          · subst e; exact hn
          · exact ((hkeys m).1 (h2 m hm)).1
        · rw [h3, hfm hnn, List.filterMap_cons, hg]; simp
      · rintro ⟨⟨h1, h1'⟩, h2, h3, h4⟩
        refine ⟨h1', ?_, ?_, h4⟩
        · intro m hm
          exact (hkeys m).2 ⟨h2 m (List.mem_cons_of_mem _ hm), fun e => h1 (e ▸ hm)⟩
        · rw [h3, hfm h1, List.filterMap_cons, hg]; simp

theorem keys_foldl_erase {V : Type} (opt : List Name) (kw : Dict Name V) (hwf : Dict.WF kw) (m : Name) :
    m ∈ Dict.keys (opt.foldl Dict.erase kw) ↔ m ∈ Dict.keys kw ∧ m ∉ opt := by
  induction opt generalizing kw with
  | nil => simp
  | cons n opt ih =>
    rw [List.foldl_cons, ih _ (hwf.erase n), Dict.mem_keys_erase hwf]
    simp only [List.mem_cons, not_or]; tauto

theorem isEmpty_iff_keys {V : Type} (d : Dict Name V) : d.isEmpty = true ↔ ∀ m, m ∉ Dict.keys d := by
  cases d with
  | nil => simp [Dict.keys]
  | cons p d =>
    simp only [List.isEmpty_cons, Bool.false_eq_true, Dict.keys, List.map_cons, false_iff, not_forall]
    exact ⟨p.1, by simp⟩

/-- A definition is *legal* for the attribute names `names` and the default mapping `kw` when the names
split into required ones (no default) followed by optional ones, the optional ones being exactly the keys
of `kw`, each once. -/
def LegalSplit {V : Type} (names : List Name) (kw : Dict Name V) (req opt : List Name) : Prop :=
  names = req ++ opt ∧ opt.Nodup ∧ (∀ n ∈ req, n ∉ Dict.keys kw) ∧
  (∀ n, n ∈ opt ↔ n ∈ Dict.keys kw)

/-- The class has the optional names' defaults, in order. -/
theorem finish_iff {V : Type} (names : List Name) (kw : Dict Name V) (hwf : Dict.WF kw) (c : RecordClass V) :
    record.finish kw names = .ok c ↔
      ∃ req opt, LegalSplit names kw req opt ∧ c.names = names ∧ c.defaults = opt.filterMap (Dict.get? kw) := by
  obtain ⟨req, opt, h1, h2, h3, h4⟩ := defaultsLoop_split names kw hwf
  unfold record.finish LegalSplit
  constructor
  · intro h
    simp only [bind, Except.bind] at h
    cases hd : defaultsLoop names kw [] with
    | error e => rw [hd] at h; cases h
    | ok r =>
      rw [hd] at h
      simp only at h
      obtain ⟨g1, g2, g3, g4⟩ := (h4 r).1 hd
      split at h
      · rename_i he
        simp only [pure, Except.pure, Except.ok.injEq] at h
        subst h
        refine ⟨req, opt, ⟨h1, g1, h2, ?_⟩, rfl, g3⟩
        intro n
        refine ⟨g2 n, fun hn => ?_⟩
        have := (isEmpty_iff_keys r.1).1 he n
        rw [g4, keys_foldl_erase _ _ hwf] at this
        by_contra hc; exact this ⟨hn, hc⟩
      · cases h
  · rintro ⟨req', opt', ⟨e1, e2, e3, e4⟩, e5, e6⟩
    -- the split is unique
    have hsplit : req = req' ∧ opt = opt' := by
      have hlen : req.length = req'.length := by
        rcases Nat.lt_trichotomy req.length req'.length with hlt | he | hlt
        · exfalso
          have h5 : names[req.length]? = opt.head? := by
            rw [h1, List.getElem?_append_right (Nat.le_refl _)]; simp [List.head?_eq_getElem?]
          have h6 : names[req.length]? = req'[req.length]? := by
            rw [e1, List.getElem?_append_left hlt]
          rw [List.getElem?_eq_getElem hlt] at h6
          have h7 := h3 _ (h5.symm.trans h6)
          exact e3 _ (List.getElem_mem hlt) h7
        · exact he
        · exfalso
          have h5 : names[req'.length]? = opt'[0]? := by
            rw [e1, List.getElem?_append_right (Nat.le_refl _)]; simp
          have h6 : names[req'.length]? = req[req'.length]? := by
            rw [h1, List.getElem?_append_left hlt]
          rw [List.getElem?_eq_getElem hlt] at h6
          have h7 : opt'[0]? = some req[req'.length] := h5.symm.trans h6
          exact h2 _ (List.getElem_mem hlt) ((e4 _).1 (List.mem_of_getElem? h7))
      exact List.append_inj (h1.symm.trans e1) hlen
    obtain ⟨rfl, rfl⟩ := hsplit
    have hok := (h4 (opt.foldl Dict.erase kw, opt.filterMap (Dict.get? kw))).2
      ⟨e2, fun n hn => (e4 n).1 hn, rfl, rfl⟩
    simp only [bind, Except.bind, hok]
    have : (List.foldl Dict.erase kw opt).isEmpty = true := by
      rw [isEmpty_iff_keys]
      intro m
      rw [keys_foldl_erase _ _ hwf]
      rintro ⟨hm, hn⟩; exact hn ((e4 m).2 hm)
    rw [if_pos this]
    cases c
    simp_all [pure, Except.pure]

/-- **C50.** `record('a b c', **defaults)` succeeds exactly when the attributes with defaults are the
trailing ones and every default belongs to an attribute; the class then has these names and, as defaults,
the given values of the optional attributes in order. -/
theorem record_named {V : Type} (names : List Name) (kw : Dict Name V) (hwf : Dict.WF kw) (c : RecordClass V) :
    record [names] kw = .ok c ↔
      ∃ req opt, LegalSplit names kw req opt ∧ c.names = names ∧ c.defaults = opt.filterMap (Dict.get? kw) :=
  finish_iff names kw hwf c

theorem mem_insertName (n m : Name) (l : List Name) : m ∈ insertName n l ↔ m = n ∨ m ∈ l := by
  induction l with
  | nil => simp [insertName]
  | cons a l ih =>
    simp only [insertName]
    split
    · simp only [List.mem_cons, ih]; tauto
    · simp only [List.mem_cons]

theorem mem_sortNames (m : Name) (l : List Name) : m ∈ sortNames l ↔ m ∈ l := by
  unfold sortNames
  induction l with
  | nil => simp
  | cons a l ih => simp only [List.foldr_cons, mem_insertName, ih, List.mem_cons]

theorem nodup_insertName {n : Name} {l : List Name} (h : l.Nodup) (hn : n ∉ l) : (insertName n l).Nodup := by
  induction l with
  | nil => simp [insertName]
  | cons a l ih =>
    simp only [List.nodup_cons, List.mem_cons, not_or] at h hn
    simp only [insertName]
    split
    · rw [List.nodup_cons]
      refine ⟨?_, ih h.2 hn.2⟩
      rw [mem_insertName]; rintro (e | hm)
      · exact hn.1 e.symm
      · exact h.1 hm
    · simp only [List.nodup_cons, List.mem_cons, not_or]
      exact ⟨⟨hn.1, hn.2⟩, h⟩

theorem nodup_sortNames {l : List Name} (h : l.Nodup) : (sortNames l).Nodup := by
  unfold sortNames
  induction l with
  | nil => simp
  | cons a l ih =>
    rw [List.nodup_cons] at h
    rw [List.foldr_cons]
    exact nodup_insertName (ih h.2) (fun hm => h.1 ((mem_sortNames a l).1 hm))

theorem strCmp_le_of_not_gt {a b : Name} (h : ¬ (strCmp a b == .gt) = true) : strCmp b a ≠ .lt := by
  intro e
  have := strCmp_swap b a
  rw [e] at this
  simp [← this, Ordering.swap] at h

theorem sorted_insertName {n : Name} {l : List Name} (h : l.Pairwise (fun a b => strCmp b a ≠ .lt)) :
    (insertName n l).Pairwise (fun a b => strCmp b a ≠ .lt) := by
  induction l with
  | nil => simp [insertName]
  | cons a l ih =>
    rw [List.pairwise_cons] at h
    simp only [insertName]
    split
    · rename_i hgt
      rw [List.pairwise_cons]
      refine ⟨?_, ih h.2⟩
      intro b hb
      rcases (mem_insertName n b l).1 hb with e | hb
      · subst e
        rw [beq_iff_eq] at hgt
        rw [hgt]; simp
      · exact h.1 b hb
    · rename_i hgt
      rw [List.pairwise_cons]
      refine ⟨?_, List.pairwise_cons.2 h⟩
      intro b hb
      have hna := strCmp_le_of_not_gt hgt
      rcases List.mem_cons.1 hb with e | hb
      · subst e; exact hna
      · intro hlt
        -- b < n ≤ a ≤ b
        have hab := h.1 b hb
        apply hab
        have hnan : strCmp n a = .lt ∨ n = a := by
          cases hc : strCmp n a with
          | lt => left; rfl
          | eq => right; exact (strCmp_eq_iff _ _).1 hc
          | gt => simp [hc] at hgt
        rcases hnan with h1 | h1
        · exact strCmp_lt_trans hlt h1
        · rw [← h1]; exact hlt

/-- `sortNames` is an ascending rearrangement. -/
theorem sorted_sortNames (l : List Name) : (sortNames l).Pairwise (fun a b => strCmp b a ≠ .lt) := by
  unfold sortNames
  induction l with
  | nil => simp
  | cons a l ih => rw [List.foldr_cons]; exact sorted_insertName ih

/-- **C50.** `record(**defaults)` without names fails with no defaults and otherwise defines the keys, in
alphabetical order, all optional, with their own defaults. -/
theorem record_unnamed {V : Type} (kw : Dict Name V) (hwf : Dict.WF kw) :
    (kw = [] → record [] kw = .error .typeError) ∧
    (kw ≠ [] → ∃ names, record [] kw = .ok ⟨names, names.filterMap (Dict.get? kw)⟩ ∧
      names.Nodup ∧ (∀ n, n ∈ names ↔ n ∈ Dict.keys kw) ∧
      names.Pairwise (fun a b => strCmp b a ≠ .lt)) := by
  constructor
  · rintro rfl; rfl
  · intro hne
    refine ⟨sortNames (Dict.keys kw), ?_, nodup_sortNames hwf, fun n => mem_sortNames n _,
      sorted_sortNames _⟩
    have : record [] kw = record.finish kw (sortNames (Dict.keys kw)) := by
      simp [record, List.isEmpty_eq_false_iff.2 hne]
    rw [this, finish_iff _ _ hwf]
    exact ⟨[], _, ⟨rfl, nodup_sortNames hwf, by simp, fun n => mem_sortNames n _⟩, rfl, rfl⟩

/-- **C50.** Two or more positional arguments are a `TypeError`; so is every illegal definition. -/
theorem record_illegal {V : Type} (a : List (List Name)) (kw : Dict Name V) (e : PyErr)
    (h : record a kw = .error e) : e = .typeError := by
  have hl : ∀ ns (kw : Dict Name V) ds e, defaultsLoop ns kw ds = .error e → e = .typeError := by
    intro ns
    induction ns with
    | nil => intro kw ds e h; cases h
    | cons n ns ih =>
      intro kw ds e h
      simp only [defaultsLoop] at h
      split at h
      · exact ih _ _ _ h
      · split at h
        · exact ih _ _ _ h
        · cases h; rfl
  have hf : ∀ names e, record.finish kw names = .error e → e = .typeError := by
    intro names e h
    simp only [record.finish, bind, Except.bind] at h
    cases hd : defaultsLoop names kw [] with
    | error e' => rw [hd] at h; cases h; exact hl _ _ _ _ hd
    | ok r =>
      rw [hd] at h
      simp only at h
      split at h
      · cases h
      · cases h; rfl
  unfold record at h
  split at h
  · exact hf _ _ h
  · split at h
    · cases h; rfl
    · exact hf _ _ h
  · cases h; rfl

/-! ## C49: calls -/

/-- The value Python's call protocol binds to the `i`-th of the parameters `names`, of which the last
`defaults.length` are optional: the positional argument, else the keyword argument, else the default. -/
def boundValue {V : Type} (c : RecordClass V) (args : List V) (kw : Dict Name V) (i : Nat) (n : Name) : Option V :=
  match args[i]? with
  | some v => some v
  | none =>
    match Dict.get? kw n with
    | some v => some v
    | none =>
      if c.names.length ≤ i + c.defaults.length then c.defaults[i + c.defaults.length - c.names.length]? else none

/-- A call that Python's binding rules accept. -/
def CallOK {V : Type} (c : RecordClass V) (args : List V) (kw : Dict Name V) : Prop :=
  args.length ≤ c.names.length ∧
  (∀ i n, c.names[i]? = some n → i < args.length → n ∉ Dict.keys kw) ∧
  (∀ i n, c.names[i]? = some n → boundValue c args kw i n ≠ none) ∧
  (∀ n ∈ Dict.keys kw, n ∈ c.names)

theorem bindPositional_ok {V : Type} (ps : List (Name × V)) (kw : Dict Name V) (hnd : (ps.map Prod.fst).Nodup)
    (hk : ∀ p ∈ ps, p.1 ∉ Dict.keys kw) :
    bindPositional ps kw = .ok (kw ++ ps) := by
  induction ps generalizing kw with
  | nil => simp [bindPositional]
  | cons p ps ih =>
    obtain ⟨n, v⟩ := p
    rw [List.map_cons, List.nodup_cons] at hnd
    have h1 := hk (n, v) (by simp)
    have h2 : Dict.has kw n = false := by
      have := Dict.has_iff kw n
      cases hh : Dict.has kw n
      · rfl
      · exact absurd (this.1 hh) h1
    simp only [bindPositional, h2]
    rw [Dict.set_of_not_mem v h1]
    simp only [Bool.false_eq_true, if_false]
    rw [ih _ hnd.2]
    · simp
    · intro q hq
      simp only [Dict.keys, List.map_append, List.map_cons, List.map_nil, List.mem_append,
        List.mem_singleton, not_or]
      refine ⟨hk q (List.mem_cons_of_mem _ hq), ?_⟩
      intro e
      exact hnd.1 (List.mem_map.2 ⟨q, hq, e⟩)

theorem bindPositional_err {V : Type} (ps : List (Name × V)) (kw : Dict Name V)
    (hk : ∃ p ∈ ps, p.1 ∈ Dict.keys kw) : bindPositional ps kw = .error .typeError := by
  induction ps generalizing kw with
  | nil => simp at hk
  | cons p ps ih =>
    obtain ⟨n, v⟩ := p
    simp only [bindPositional]
    by_cases hh : Dict.has kw n = true
    · simp [hh]
    · simp only [hh]
      have hn : n ∉ Dict.keys kw := fun hm => hh ((Dict.has_iff kw n).2 hm)
      obtain ⟨q, hq, hqk⟩ := hk
      rcases List.mem_cons.1 hq with e | hq
      · subst e; exact absurd hqk hn
      · simp only [Bool.false_eq_true, if_false]
        apply ih
        refine ⟨q, hq, ?_⟩
        rw [Dict.set_of_not_mem v hn]
        simp only [Dict.keys, List.map_append, List.mem_append]
        exact Or.inl hqk

theorem bindPositional_err_iff {V : Type} (ps : List (Name × V)) (kw : Dict Name V) (e : PyErr)
    (h : bindPositional ps kw = .error e) : e = .typeError := by
  induction ps generalizing kw with
  | nil => cases h
  | cons p ps ih =>
    simp only [bindPositional] at h
    split at h
    · cases h; rfl
    · exact ih _ h

theorem fillDefaults_get? {V : Type} (ps : List (Name × V)) (kw : Dict Name V) (n : Name) :
    Dict.get? (fillDefaults ps kw) n =
      match Dict.get? kw n with | some v => some v | none => Dict.get? ps n := by
  induction ps generalizing kw with
  | nil => simp only [fillDefaults, Dict.get?_nil]; cases Dict.get? kw n <;> rfl
  | cons p ps ih =>
    obtain ⟨m, v⟩ := p
    simp only [fillDefaults]
    rw [ih]
    by_cases hh : Dict.has kw m = true
    · simp only [hh, if_true]
      cases hg : Dict.get? kw n with
      | some w => rfl
      | none =>
        simp only [Dict.get?]
        have : m ≠ n := by
          intro e; subst e
          simp [Dict.has, hg] at hh
        simp [this]
    · simp only [hh, Bool.false_eq_true, if_false, Dict.get?_set, Dict.get?]
      by_cases e : m = n
      · subst e
        have : Dict.get? kw m = none := by
          cases hg : Dict.get? kw m with
          | none => rfl
          | some w => simp [Dict.has, hg] at hh
        simp [this]
      · simp [e]

theorem fillDefaults_wf {V : Type} (ps : List (Name × V)) (kw : Dict Name V) (h : Dict.WF kw) :
    Dict.WF (fillDefaults ps kw) := by
  induction ps generalizing kw with
  | nil => exact h
  | cons p ps ih =>
    simp only [fillDefaults]
    apply ih
    split
    · exact h
    · exact h.set _ _

theorem setAttrs_spec {V : Type} (ns : List Name) (kw attrs : Dict Name V) (hwf : Dict.WF kw) (hnd : ns.Nodup)
    (ha : ∀ n ∈ ns, n ∉ Dict.keys attrs) :
    (∀ vs : List V, ns.map (Dict.get? kw) = vs.map some →
      setAttrs ns kw attrs = .ok (ns.foldl Dict.erase kw, attrs ++ ns.zip vs)) ∧
    ((∃ n ∈ ns, Dict.get? kw n = none) → setAttrs ns kw attrs = .error .typeError) := by
  induction ns generalizing kw attrs with
  | nil =>
    constructor
    · intro vs _; simp [setAttrs]
    · simp
  | cons n ns ih =>
    rw [List.nodup_cons] at hnd
    have hcong : ns.map (Dict.get? (Dict.erase kw n)) = ns.map (Dict.get? kw) := by
      apply List.map_congr_left
      intro m hm
      exact Dict.get?_erase_other kw n m (fun e => hnd.1 (e ▸ hm))
    have hna := ha n (by simp)
    have ha' : ∀ v, ∀ m ∈ ns, m ∉ Dict.keys (Dict.set attrs n v) := by
      intro v m hm
      rw [Dict.set_of_not_mem v hna]
      simp only [Dict.keys, List.map_append, List.map_cons, List.map_nil, List.mem_append,
        List.mem_singleton, not_or]
      exact ⟨ha m (List.mem_cons_of_mem _ hm), fun e => hnd.1 (e ▸ hm)⟩
    constructor
    · intro vs hvs
      cases vs with
      | nil => simp at hvs
      | cons v vs =>
        simp only [List.map_cons, List.cons.injEq] at hvs
        simp only [setAttrs, hvs.1]
        rw [(ih _ _ (hwf.erase n) hnd.2 (ha' v)).1 vs (hcong.trans hvs.2)]
        rw [Dict.set_of_not_mem v hna]
        simp
    · rintro ⟨m, hm, hg⟩
      simp only [setAttrs]
      cases hgn : Dict.get? kw n with
      | none => rfl
      | some v =>
        simp only []
        apply (ih _ _ (hwf.erase n) hnd.2 (ha' v)).2
        have hmn : m ≠ n := by intro e; subst e; rw [hgn] at hg; cases hg
        refine ⟨m, ?_, ?_⟩
        · rcases List.mem_cons.1 hm with e | hm
          · exact absurd e hmn
          · exact hm
        · rw [Dict.get?_erase_other kw n m (Ne.symm hmn)]; exact hg

theorem get?_zip {V : Type} (ns : List Name) (vs : List V) (hnd : ns.Nodup) (i : Nat) (n : Name)
    (h : ns[i]? = some n) : Dict.get? (ns.zip vs) n = vs[i]? := by
  induction ns generalizing vs i with
  | nil => simp at h
  | cons m ns ih =>
    rw [List.nodup_cons] at hnd
    cases vs with
    | nil => simp
    | cons v vs =>
      cases i with
      | zero => simp at h; subst h; simp [Dict.get?]
      | succ i =>
        simp at h
        have : m ≠ n := by intro e; subst e; exact hnd.1 (List.mem_of_getElem? h)
        simp only [List.zip_cons_cons, Dict.get?, if_neg this, List.getElem?_cons_succ]
        exact ih vs hnd.2 i h

theorem get?_append {V : Type} (d₁ d₂ : Dict Name V) (n : Name) :
    Dict.get? (d₁ ++ d₂) n = match Dict.get? d₁ n with | some v => some v | none => Dict.get? d₂ n := by
  induction d₁ with
  | nil => rfl
  | cons p d ih =>
    obtain ⟨m, v⟩ := p
    simp only [List.cons_append, Dict.get?]
    split
    · rfl
    · exact ih

/-- What the keyword mapping looks like after positionals and defaults have been merged: exactly the
bound value of each parameter. -/
theorem merged_get? {V : Type} (c : RecordClass V) (hnd : c.names.Nodup) (hd : c.defaults.length ≤ c.names.length)
    (args : List V) (kw : Dict Name V) (hlen : args.length ≤ c.names.length)
    (hdup : ∀ i n, c.names[i]? = some n → i < args.length → n ∉ Dict.keys kw)
    (i : Nat) (n : Name) (hi : c.names[i]? = some n) :
    Dict.get? (fillDefaults (c.names.reverse.zip c.defaults.reverse) (kw ++ c.names.zip args)) n =
      boundValue c args kw i n := by
  have hil : i < c.names.length := by
    by_contra hge; rw [List.getElem?_eq_none_iff.2 (by omega)] at hi; cases hi
  rw [fillDefaults_get?, get?_append, get?_zip _ _ hnd i n hi]
  have hrev : c.names.reverse[c.names.length - 1 - i]? = some n := by
    rw [List.getElem?_reverse (by omega)]
    rw [← hi]; congr 1; omega
  rw [get?_zip _ _ (List.nodup_reverse.2 hnd) _ n hrev]
  unfold boundValue
  by_cases hia : i < args.length
  · rw [List.getElem?_eq_getElem hia, (Dict.get?_eq_none_iff kw n).2 (hdup i n hi hia)]
  · rw [List.getElem?_eq_none_iff.2 (by omega : args.length ≤ i)]
    cases hk : Dict.get? kw n with
    | some v => rfl
    | none =>
      simp only []
      split
      · rename_i hle
        rw [List.getElem?_reverse (by omega)]
        congr 1; omega
      · rw [List.getElem?_eq_none_iff]; simp; omega

/-- **C49.** The initialiser accepts exactly the calls that Python's own binding rules accept for a
function with these parameters (at most as many positionals as parameters, no parameter given twice, none
missing, no unknown keyword), and then binds each attribute to the positional, keyword or default value. -/
theorem init_ok {V : Type} (c : RecordClass V) (hnd : c.names.Nodup) (hd : c.defaults.length ≤ c.names.length)
    (args : List V) (kw : Dict Name V) (hwf : Dict.WF kw) (h : CallOK c args kw) :
    ∃ attrs, init c args kw = .ok attrs ∧ Dict.keys attrs = c.names ∧
      ∀ i n, c.names[i]? = some n → Dict.get? attrs n = boundValue c args kw i n := by
  obtain ⟨h1, h2, h3, h4⟩ := h
  have hzip : ((c.names.zip args).map Prod.fst).Nodup := by
    rw [map_fst_zip_take]; exact (List.take_sublist _ _).nodup hnd
  have hpos : ∀ p ∈ c.names.zip args, p.1 ∉ Dict.keys kw := by
    intro p hp
    obtain ⟨i, hi⟩ := List.getElem?_of_mem hp
    rw [List.getElem?_zip_eq_some] at hi
    apply h2 i p.1 hi.1
    by_contra hge
    have := hi.2
    rw [List.getElem?_eq_none_iff.2 (by omega : args.length ≤ i)] at this; cases this
  have hb := bindPositional_ok _ kw hzip hpos
  have hwf1 : Dict.WF (kw ++ c.names.zip args) := by
    unfold Dict.WF Dict.keys
    rw [List.map_append, List.nodup_append]
    refine ⟨hwf, hzip, ?_⟩
    intro a ha b hb e
    subst e
    obtain ⟨p, hp, rfl⟩ := List.mem_map.1 hb
    exact hpos p hp ha
  have hm := merged_get? c hnd hd args kw h1 h2
  have hwf2 := fillDefaults_wf (c.names.reverse.zip c.defaults.reverse) _ hwf1
  generalize hkw2 : fillDefaults (c.names.reverse.zip c.defaults.reverse) (kw ++ c.names.zip args) = kw2 at hm hwf2
  have hvs : ∃ vs : List V, c.names.map (Dict.get? kw2) = vs.map some := by
    have : ∀ n ∈ c.names, Dict.get? kw2 n ≠ none := by
      intro n hn
      obtain ⟨i, hi⟩ := List.getElem?_of_mem hn
      rw [hm i n hi]; exact h3 i n hi
    clear hm h3 h2 h1 h4 hkw2 hpos hzip hb hwf1 hd
    generalize c.names = ns at this
    clear hnd
    induction ns with
    | nil => exact ⟨[], rfl⟩
    | cons n ns ih =>
      obtain ⟨vs, hvs⟩ := ih (fun m hm => this m (List.mem_cons_of_mem _ hm))
      have hn := this n (by simp)
      cases hg : Dict.get? kw2 n with
      | none => exact absurd hg hn
      | some v => exact ⟨v :: vs, by simp [hg, hvs]⟩
  obtain ⟨vs, hvs⟩ := hvs
  have hs := (setAttrs_spec c.names kw2 [] hwf2 hnd (by simp [Dict.keys])).1 vs hvs
  have hempty : (c.names.foldl Dict.erase kw2).isEmpty = true := by
    rw [isEmpty_iff_keys]
    intro m
    rw [keys_foldl_erase _ _ hwf2]
    rintro ⟨hmk, hmn⟩
    -- every key of kw2 is a name
    have hsub : ∀ (ps : List (Name × V)) (d : Dict Name V), (∀ p ∈ ps, p.1 ∈ c.names) →
        (∀ k ∈ Dict.keys d, k ∈ c.names) → ∀ k ∈ Dict.keys (fillDefaults ps d), k ∈ c.names := by
      intro ps
      induction ps with
      | nil => intro d _ hd; exact hd
      | cons p ps ih =>
        intro d hp hdk
        simp only [fillDefaults]
        apply ih _ (fun q hq => hp q (List.mem_cons_of_mem _ hq))
        split
        · exact hdk
        · rename_i hnh
          have : p.1 ∉ Dict.keys d := fun hmem => hnh ((Dict.has_iff d p.1).2 hmem)
          rw [Dict.set_of_not_mem _ this]
          intro k hk
          simp only [Dict.keys, List.map_append, List.map_cons, List.map_nil, List.mem_append,
            List.mem_singleton] at hk
          rcases hk with hk | hk
          · exact hdk k hk
          · subst hk; exact hp p (by simp)
    apply hmn
    rw [← hkw2] at hmk
    refine hsub _ _ ?_ ?_ m hmk
    · intro p hp
      have := (List.of_mem_zip hp).1
      exact List.mem_reverse.1 this
    · intro k hk
      simp only [Dict.keys, List.map_append, List.mem_append] at hk
      rcases hk with hk | hk
      · exact h4 k hk
      · obtain ⟨p, hp, rfl⟩ := List.mem_map.1 hk
        exact (List.of_mem_zip hp).1
  have hlenvs : vs.length = c.names.length := by
    have := congrArg List.length hvs; simpa using this.symm
  refine ⟨c.names.zip vs, ?_, ?_, ?_⟩
  · unfold init
    have hnlt : ¬ args.length > c.names.length := by omega
    simp only [if_neg hnlt, bind, Except.bind, hb, hkw2, hs, hempty, if_true, List.nil_append, pure,
      Except.pure]
  · unfold Dict.keys
    rw [map_fst_zip_take, hlenvs]
    simp
  · intro i n hi
    rw [get?_zip _ _ hnd i n hi, ← hm i n hi]
    have := congrArg (fun l => l[i]?) hvs
    simp only [List.getElem?_map, hi, Option.map_some] at this
    cases hv : vs[i]? with
    | none => rw [hv] at this; cases this
    | some v => rw [hv] at this; simp only [Option.map_some, Option.some.injEq] at this; exact this.symm

/-- **C49.** Every other call raises `TypeError`. -/
theorem init_error {V : Type} (c : RecordClass V) (hnd : c.names.Nodup) (hd : c.defaults.length ≤ c.names.length)
    (args : List V) (kw : Dict Name V) (hwf : Dict.WF kw) (h : ¬ CallOK c args kw) :
    init c args kw = .error .typeError := by
  by_cases h1 : args.length ≤ c.names.length
  swap
  · unfold init
    have : args.length > c.names.length := by omega
    simp [this, bind, Except.bind]
  have hnlt : ¬ args.length > c.names.length := by omega
  by_cases h2 : ∀ i n, c.names[i]? = some n → i < args.length → n ∉ Dict.keys kw
  swap
  · push Not at h2
    obtain ⟨i, n, hi, hia, hk⟩ := h2
    have : bindPositional (c.names.zip args) kw = .error .typeError := by
      apply bindPositional_err
      refine ⟨(n, args[i]), ?_, hk⟩
      apply List.mem_of_getElem? (i := i)
      rw [List.getElem?_zip_eq_some]
      exact ⟨hi, List.getElem?_eq_getElem hia⟩
    unfold init
    simp only [if_neg hnlt, bind, Except.bind, this, pure, Except.pure]
  have hzip : ((c.names.zip args).map Prod.fst).Nodup := by
    rw [map_fst_zip_take]; exact (List.take_sublist _ _).nodup hnd
  have hpos : ∀ p ∈ c.names.zip args, p.1 ∉ Dict.keys kw := by
    intro p hp
    obtain ⟨i, hi⟩ := List.getElem?_of_mem hp
    rw [List.getElem?_zip_eq_some] at hi
    apply h2 i p.1 hi.1
    by_contra hge
    have := hi.2
    rw [List.getElem?_eq_none_iff.2 (by omega : args.length ≤ i)] at this; cases this
  have hb := bindPositional_ok _ kw hzip hpos
  have hwf1 : Dict.WF (kw ++ c.names.zip args) := by
    unfold Dict.WF Dict.keys
    rw [List.map_append, List.nodup_append]
    refine ⟨hwf, hzip, ?_⟩
    intro a ha b hb e
    subst e
    obtain ⟨p, hp, rfl⟩ := List.mem_map.1 hb
    exact hpos p hp ha
  have hm := merged_get? c hnd hd args kw h1 h2
  have hwf2 := fillDefaults_wf (c.names.reverse.zip c.defaults.reverse) _ hwf1
  have hkeep := fun n => fillDefaults_get? (c.names.reverse.zip c.defaults.reverse) (kw ++ c.names.zip args) n
  generalize hkw2 : fillDefaults (c.names.reverse.zip c.defaults.reverse) (kw ++ c.names.zip args) = kw2
    at hm hwf2 hkeep
  by_cases h3 : ∀ i n, c.names[i]? = some n → boundValue c args kw i n ≠ none
  swap
  · push Not at h3
    obtain ⟨i, n, hi, hbv⟩ := h3
    have hs := (setAttrs_spec c.names kw2 [] hwf2 hnd (by simp [Dict.keys])).2
      ⟨n, List.mem_of_getElem? hi, by rw [hm i n hi]; exact hbv⟩
    unfold init
    simp only [if_neg hnlt, bind, Except.bind, hb, hkw2, hs, pure, Except.pure]
  have h4 : ¬ ∀ n ∈ Dict.keys kw, n ∈ c.names := fun h4 => h ⟨h1, h2, h3, h4⟩
  push Not at h4
  obtain ⟨m, hmk, hmn⟩ := h4
  unfold init
  simp only [if_neg hnlt, bind, Except.bind, hb, hkw2, pure, Except.pure]
  by_cases hall : ∃ n ∈ c.names, Dict.get? kw2 n = none
  · rw [(setAttrs_spec c.names kw2 [] hwf2 hnd (by simp [Dict.keys])).2 hall]
  · push Not at hall
    have hvs : ∃ vs : List V, c.names.map (Dict.get? kw2) = vs.map some := by
      generalize c.names = ns at hall
      induction ns with
      | nil => exact ⟨[], rfl⟩
      | cons n ns ih =>
        obtain ⟨vs, hvs⟩ := ih (fun m hm => hall m (List.mem_cons_of_mem _ hm))
        cases hg : Dict.get? kw2 n with
        | none => exact absurd hg (hall n (by simp))
        | some v => exact ⟨v :: vs, by simp [hg, hvs]⟩
    obtain ⟨vs, hvs⟩ := hvs
    rw [(setAttrs_spec c.names kw2 [] hwf2 hnd (by simp [Dict.keys])).1 vs hvs]
    have : ¬ (c.names.foldl Dict.erase kw2).isEmpty = true := by
      rw [isEmpty_iff_keys]
      push Not
      refine ⟨m, ?_⟩
      rw [keys_foldl_erase _ _ hwf2]
      refine ⟨?_, hmn⟩
      by_contra hnm
      have h5 := (Dict.get?_eq_none_iff kw2 m).2 hnm
      rw [hkeep m, get?_append] at h5
      cases hg : Dict.get? kw m with
      | none => exact (Dict.get?_eq_none_iff kw m).1 hg hmk
      | some v => rw [hg] at h5; cases h5
    simp only [if_neg this]

/-- Classes produced by `record` satisfy the length hypothesis of C49. -/
theorem record_defaults_length {V : Type} (names : List Name) (kw : Dict Name V) (hwf : Dict.WF kw)
    (c : RecordClass V) (h : record [names] kw = .ok c) : c.defaults.length ≤ c.names.length := by
  obtain ⟨req, opt, ⟨h1, -, -, -⟩, h5, h6⟩ := (record_named names kw hwf c).1 h
  rw [h5, h6, h1, List.length_append]
  have := List.length_filterMap_le (Dict.get? kw) opt
  omega

/-- Non-vacuity (`a` = [97], …): `record('a b', b=5)(1)`, `record('a b', b=5)(b=2, a=1)`, a clash, a gap. -/
example : record [[[97], [98]]] [([98], 5)] = .ok (⟨[[97], [98]], [5]⟩ : RecordClass Nat) := by decide
example : init (⟨[[97], [98]], [5]⟩ : RecordClass Nat) [1] [] = .ok [([97], 1), ([98], 5)] := by decide
example : init (⟨[[97], [98]], [5]⟩ : RecordClass Nat) [] [([98], 2), ([97], 1)] = .ok [([97], 1), ([98], 2)] := by
  decide
example : init (⟨[[97], [98]], [5]⟩ : RecordClass Nat) [1] [([97], 2)] = .error .typeError := by decide
example : record [[[97], [98]]] [([97], 5)] = (.error .typeError : Except PyErr (RecordClass Nat)) := by decide

end Verif.Structlike
