import Verif.Model.Certcreate
/-!
# C100: the command line of certcreate

`Written T os rest args` is the specification of a command line: `args` gives the options `os`, each with its argument, in one of
the ways that there are to write it, and then the other arguments `rest`.
-/
namespace Verif.Certcreate
open Verif.Py

/-- `n` names the option `o`: it is its name, or it is no name but the beginning of that of `o` and of no other. -/
def Names (T : List Opt) (n : Str) (o : Opt) : Prop :=
  o ∈ T ∧ (o.long = n ∨ ((∀ p ∈ T, p.long ≠ n) ∧ n <+: o.long ∧ ∀ p ∈ T, n <+: p.long → p = o))

/-- The letters of one argument, and the argument after it if the last letter needs it. -/
inductive Letters (T : List Opt) : List (Str × Str) → Str → List Str → Prop
  | flag {c : Nat} {o : Opt} : o ∈ T → o.short = some c → o.hasArg = false → Letters T [(o.long, [])] [c] []
  | flags {c : Nat} {o : Opt} {os : List (Str × Str)} {r : Str} {more : List Str} : o ∈ T → o.short = some c → o.hasArg = false →
      Letters T os r more → Letters T ((o.long, []) :: os) (c :: r) more
  | attached {c : Nat} {o : Opt} {v : Str} : o ∈ T → o.short = some c → o.hasArg = true → v ≠ [] →
      Letters T [(o.long, v)] (c :: v) []
  | next {c : Nat} {o : Opt} {v : Str} : o ∈ T → o.short = some c → o.hasArg = true → Letters T [(o.long, v)] [c] [v]

inductive Written (T : List Opt) : List (Str × Str) → List Str → List Str → Prop
  /-- no more options: nothing follows, or an argument without dash, or a dash alone -/
  | rest {rest : List Str} : (∀ a, rest.head? = some a → a.head? ≠ some 45 ∨ a = [45]) → Written T [] rest rest
  /-- `--` ends the options -/
  | ended {rest : List Str} : Written T [] rest ([45, 45] :: rest)
  /-- `--name=value` -/
  | equals {n v : Str} {o : Opt} {os : List (Str × Str)} {rest args : List Str} : Names T n o → 61 ∉ n → o.hasArg = true →
      Written T os rest args → Written T ((o.long, v) :: os) rest ((45 :: 45 :: (n ++ 61 :: v)) :: args)
  /-- `--name value` -/
  | separate {n v : Str} {o : Opt} {os : List (Str × Str)} {rest args : List Str} : Names T n o → n ≠ [] → 61 ∉ n →
      o.hasArg = true → Written T os rest args → Written T ((o.long, v) :: os) rest ((45 :: 45 :: n) :: v :: args)
  /-- `--name` -/
  | flag {n : Str} {o : Opt} {os : List (Str × Str)} {rest args : List Str} : Names T n o → n ≠ [] → 61 ∉ n → o.hasArg = false →
      Written T os rest args → Written T ((o.long, []) :: os) rest ((45 :: 45 :: n) :: args)
  /-- `-xyz` -/
  | letters {ps os : List (Str × Str)} {c : Nat} {r : Str} {more rest args : List Str} : c ≠ 45 → Letters T ps (c :: r) more →
      Written T os rest args → Written T (ps ++ os) rest ((45 :: c :: r) :: (more ++ args))

/-- A table in which no two options share a name or a letter. -/
structure Distinct (T : List Opt) : Prop where
  nodup : T.Nodup
  long : ∀ o ∈ T, ∀ p ∈ T, o.long = p.long → o = p
  short : ∀ o ∈ T, ∀ p ∈ T, ∀ c, o.short = some c → p.short = some c → o = p

theorem longHasArgs_iff {T : List Opt} (h : Distinct T) (n : Str) (o : Opt) : longHasArgs T n = some o ↔ Names T n o := by
  have hmem : ∀ p, p ∈ T.filter (fun o => n.isPrefixOf o.long) ↔ p ∈ T ∧ n <+: p.long := by
    intro p; rw [List.mem_filter, List.isPrefixOf_iff_prefix]
  have hnd := h.nodup.filter (fun o => n.isPrefixOf o.long)
  unfold longHasArgs Names
  cases hf : T.filter (fun o => n.isPrefixOf o.long) with
  | nil =>
    simp only [reduceCtorEq, false_iff]
    rintro ⟨h1, h2 | ⟨_, h2, _⟩⟩
    · have := (hmem o).2 ⟨h1, h2 ▸ List.prefix_rfl⟩
      rw [hf] at this; cases this
    · have := (hmem o).2 ⟨h1, h2⟩
      rw [hf] at this; cases this
  | cons p ps =>
    rw [hf] at hmem hnd
    simp only
    cases hd : (p :: ps).find? (fun o => o.long == n) with
    | some q =>
      have hq1 := List.mem_of_find?_eq_some hd
      have hq2 : q.long = n := by simpa using List.find?_some hd
      have hq3 := (hmem q).1 hq1
      simp only [Option.some.injEq]
      constructor
      · rintro rfl; exact ⟨hq3.1, .inl hq2⟩
      · rintro ⟨h1, h2 | ⟨h2, _⟩⟩
        · exact h.long q hq3.1 o h1 (by rw [hq2, h2])
        · exact absurd hq2 (h2 q hq3.1)
    | none =>
      have hno : ∀ q ∈ T, q.long ≠ n := by
        intro q hq e
        have := (hmem q).2 ⟨hq, e ▸ List.prefix_rfl⟩
        have := List.find?_eq_none.1 hd q this
        simp [e] at this
      simp only
      constructor
      · intro hh
        split at hh
        · rename_i hps
          cases hh
          refine ⟨((hmem _).1 (by simp)).1, .inr ⟨hno, ((hmem _).1 (by simp)).2, fun q hq hp => ?_⟩⟩
          have := (hmem q).2 ⟨hq, hp⟩
          rw [hps] at this
          simpa using this
        · cases hh
      · rintro ⟨h1, h2 | ⟨_, h2, h3⟩⟩
        · exact absurd h2 (hno o h1)
        · have hall : ∀ q ∈ p :: ps, q = o := fun q hq => h3 q ((hmem q).1 hq).1 ((hmem q).1 hq).2
          have hp : p = o := hall p (by simp)
          cases ps with
          | nil => simp [hp]
          | cons q qs =>
            have hq : q = o := hall q (by simp)
            rw [hp, hq] at hnd
            simp at hnd

theorem shortOpt_iff {T : List Opt} (h : Distinct T) (c : Nat) (o : Opt) : shortOpt T c = some o ↔ o ∈ T ∧ o.short = some c := by
  unfold shortOpt
  constructor
  · intro hh
    exact ⟨List.mem_of_find?_eq_some hh, by simpa using List.find?_some hh⟩
  · rintro ⟨h1, h2⟩
    cases hd : T.find? (fun o => o.short == some c) with
    | none =>
      have := List.find?_eq_none.1 hd o h1
      simp [h2] at this
    | some q =>
      have hq1 := List.mem_of_find?_eq_some hd
      have hq2 : q.short = some c := by simpa using List.find?_some hd
      rw [h.short q hq1 o h1 c hq2 h2]

theorem doShorts_iff {T : List Opt} (h : Distinct T) (s : Str) (hs : s ≠ []) (args args' : List Str) (ps : List (Str × Str)) :
    doShorts T s args = some (ps, args') ↔ ∃ more, args = more ++ args' ∧ Letters T ps s more := by
  induction s generalizing ps with
  | nil => exact absurd rfl hs
  | cons c r ih =>
    rw [doShorts]
    cases ho : shortOpt T c with
    | none =>
      simp only [reduceCtorEq, false_iff]
      rintro ⟨more, _, hl⟩
      have : ∀ o, o ∈ T → o.short = some c → False := by
        intro o h1 h2
        rw [(shortOpt_iff h c o).2 ⟨h1, h2⟩] at ho; cases ho
      cases hl with
      | flag h1 h2 _ => exact this _ h1 h2
      | flags h1 h2 _ _ => exact this _ h1 h2
      | attached h1 h2 _ _ => exact this _ h1 h2
      | next h1 h2 _ => exact this _ h1 h2
    | some o =>
      obtain ⟨h1, h2⟩ := (shortOpt_iff h c o).1 ho
      have huniq : ∀ p, p ∈ T → p.short = some c → p = o := fun p hp hp' => h.short p hp o h1 c hp' h2
      simp only
      cases hb : o.hasArg with
      | true =>
        rw [if_pos rfl]
        constructor
        · intro hh
          split at hh
          · cases hh
          · cases hh
            exact ⟨_, rfl, .next h1 h2 hb⟩
          · cases hh
            rename_i hne
            refine ⟨[], rfl, .attached h1 h2 hb ?_⟩
            rintro rfl
            rename_i hne2
            cases args with
            | nil => exact hne2 rfl rfl
            | cons a as => exact hne a as rfl rfl
        · rintro ⟨more, rfl, hl⟩
          cases hl with
          | flag h3 h4 h5 => rw [huniq _ h3 h4, hb] at h5; cases h5
          | flags h3 h4 h5 _ => rw [huniq _ h3 h4, hb] at h5; cases h5
          | attached h3 h4 h5 h6 =>
            rw [huniq _ h3 h4]
            cases r with
            | nil => exact absurd rfl h6
            | cons d r => rfl
          | next h3 h4 h5 =>
            rw [huniq _ h3 h4]
            rfl
      | false =>
        rw [if_neg (by simp)]
        by_cases hr : r = []
        · subst hr
          simp only [doShorts, Option.map_some, Option.some.injEq, Prod.mk.injEq]
          constructor
          · rintro ⟨rfl, rfl⟩
            exact ⟨[], rfl, .flag h1 h2 hb⟩
          · rintro ⟨more, rfl, hl⟩
            cases hl with
            | flag h3 h4 h5 => rw [huniq _ h3 h4]; exact ⟨rfl, rfl⟩
            | flags h3 h4 h5 h6 => cases h6
            | attached h3 h4 h5 h6 => exact absurd rfl h6
            | next h3 h4 h5 => rw [huniq _ h3 h4, hb] at h5; cases h5
        · have ih := ih hr
          constructor
          · intro hh
            rw [Option.map_eq_some_iff] at hh
            obtain ⟨⟨qs, as⟩, hq, e⟩ := hh
            cases e
            obtain ⟨more, e, hl⟩ := (ih _).1 hq
            exact ⟨more, e, .flags h1 h2 hb hl⟩
          · rintro ⟨more, rfl, hl⟩
            cases hl with
            | flag h3 h4 h5 => exact absurd rfl hr
            | flags h3 h4 h5 h6 =>
              rw [(ih _).2 ⟨more, rfl, h6⟩, huniq _ h3 h4]
              rfl
            | attached h3 h4 h5 h6 => rw [huniq _ h3 h4, hb] at h5; cases h5
            | next h3 h4 h5 => rw [huniq _ h3 h4, hb] at h5; cases h5

theorem takeWhile_eq {n v : Str} (h : 61 ∉ n) : (n ++ 61 :: v).takeWhile (· ≠ 61) = n ∧
    (n ++ 61 :: v).dropWhile (· ≠ 61) = 61 :: v := by
  induction n with
  | nil => simp
  | cons c n ih =>
    simp only [List.mem_cons, not_or] at h
    have hc : c ≠ 61 := fun e => h.1 e.symm
    have := ih h.2
    simp only [List.cons_append, List.takeWhile_cons, List.dropWhile_cons, this, decide_eq_true hc, if_true, and_self]

theorem takeWhile_none {n : Str} (h : 61 ∉ n) : n.takeWhile (· ≠ 61) = n := by
  induction n with
  | nil => rfl
  | cons c n ih =>
    simp only [List.mem_cons, not_or] at h
    have hc : c ≠ 61 := fun e => h.1 e.symm
    have := ih h.2
    simp only [List.takeWhile_cons, this, decide_eq_true hc, if_true]

theorem split_eq {s : Str} (h : 61 ∈ s) : ∃ n v, 61 ∉ n ∧ s = n ++ 61 :: v := by
  obtain ⟨n, v, e⟩ := List.append_of_mem h
  induction s generalizing n v with
  | nil => cases h
  | cons c s ih =>
    by_cases hc : c = 61
    · exact ⟨[], s, by simp, by rw [hc]; rfl⟩
    · have hs : 61 ∈ s := by
        rcases List.mem_cons.1 h with e | e
        · exact absurd e.symm hc
        · exact e
      obtain ⟨n', v', e'⟩ := List.append_of_mem hs
      obtain ⟨n'', v'', h1, h2⟩ := ih hs n' v' e'
      exact ⟨c :: n'', v'', by rw [List.mem_cons, not_or]; exact ⟨fun e => hc e.symm, h1⟩, by rw [h2]; rfl⟩

/-- The ways to write a long option. -/
inductive Long (T : List Opt) : Str × Str → Str → List Str → Prop
  | equals {n v : Str} {o : Opt} : Names T n o → 61 ∉ n → o.hasArg = true → Long T (o.long, v) (n ++ 61 :: v) []
  | separate {n v : Str} {o : Opt} : Names T n o → 61 ∉ n → o.hasArg = true → Long T (o.long, v) n [v]
  | flag {n : Str} {o : Opt} : Names T n o → 61 ∉ n → o.hasArg = false → Long T (o.long, []) n []

theorem Names.unique {T : List Opt} (h : Distinct T) {n : Str} {o p : Opt} (h1 : Names T n o) (h2 : Names T n p) : o = p := by
  have a := (longHasArgs_iff h n o).2 h1
  have b := (longHasArgs_iff h n p).2 h2
  rw [a] at b
  exact Option.some.inj b

theorem doLongs_iff {T : List Opt} (h : Distinct T) (s : Str) (args args' : List Str) (p : Str × Str) :
    doLongs T s args = some (p, args') ↔ ∃ more, args = more ++ args' ∧ Long T p s more := by
  constructor
  · intro hh
    unfold doLongs at hh
    dsimp only at hh
    by_cases he : 61 ∈ s
    · obtain ⟨n, v, hn, rfl⟩ := split_eq he
      rw [(takeWhile_eq hn).1, (takeWhile_eq hn).2, if_pos he] at hh
      simp only [List.drop_succ_cons, List.drop_zero] at hh
      split at hh
      · cases hh
      · rename_i o ho
        have hN := (longHasArgs_iff h n o).1 ho
        split at hh
        · rename_i hb
          cases hh
          exact ⟨[], rfl, .equals hN hn hb⟩
        · cases hh
    · rw [takeWhile_none he, if_neg he] at hh
      split at hh
      · cases hh
      · rename_i o ho
        have hN := (longHasArgs_iff h s o).1 ho
        split at hh
        · rename_i hb
          split at hh
          · rename_i e; cases e
          · cases hh
          · cases hh
            exact ⟨[_], rfl, .separate hN he hb⟩
        · rename_i hb
          cases hh
          exact ⟨[], rfl, .flag hN he (by simpa using hb)⟩
  · rintro ⟨more, rfl, hl⟩
    unfold doLongs
    dsimp only
    cases hl with
    | @equals n v o hN hn hb =>
      rw [(takeWhile_eq hn).1, (takeWhile_eq hn).2, if_pos (by simp), (longHasArgs_iff h n o).2 hN]
      simp [hb]
    | separate hN hn hb =>
      rw [takeWhile_none hn, if_neg hn, (longHasArgs_iff h s _).2 hN]
      simp [hb]
    | flag hN hn hb =>
      rw [takeWhile_none hn, if_neg hn, (longHasArgs_iff h s _).2 hN]
      simp [hb]

/-- Everything that follows `--name`, without cases on the way of writing. -/
theorem Written.long {T : List Opt} {p : Str × Str} {s : Str} {more : List Str} (hl : Long T p s more) (hs : s ≠ [])
    {os : List (Str × Str)} {rest args : List Str} (hw : Written T os rest args) :
    Written T (p :: os) rest ((45 :: 45 :: s) :: (more ++ args)) := by
  cases hl with
  | equals h1 h2 h3 => exact .equals h1 h2 h3 hw
  | separate h1 h2 h3 => exact .separate h1 hs h2 h3 hw
  | flag h1 h2 h3 => exact .flag h1 hs h2 h3 hw

theorem getoptGo_iff {T : List Opt} (h : Distinct T) (n : Nat) (args : List Str) (hn : args.length ≤ n) (os : List (Str × Str))
    (rest : List Str) : getoptGo T n args = some (os, rest) ↔ Written T os rest args := by
  induction n generalizing args os with
  | zero =>
    have : args = [] := List.length_eq_zero_iff.1 (by omega)
    subst this
    rw [getoptGo]
    constructor
    · intro hh; cases hh; exact .rest (fun a ha => by cases ha)
    · intro hh; cases hh; rfl
  | succ n ih =>
    cases args with
    | nil =>
      rw [getoptGo]
      constructor
      · intro hh; cases hh; exact .rest (fun a ha => by cases ha)
      · intro hh; cases hh; rfl
    | cons a args =>
      have hlen : args.length ≤ n := by simpa using hn
      unfold getoptGo
      split
      · constructor
        · intro hh; cases hh; exact .ended
        · intro hh
          generalize e : [45, 45] :: args = l at hh
          cases hh with
          | rest h1 =>
            subst e
            rcases h1 _ rfl with h2 | h2
            · exact absurd rfl h2
            · cases h2
          | ended => cases e; rfl
          | separate _ h2 => cases e; exact absurd rfl h2
          | flag _ h2 => cases e; exact absurd rfl h2
          | letters h1 => cases e; exact absurd rfl h1
          | @equals n v => simp at e
      · rename_i arg hne
        have hne : arg ≠ [] := fun e => hne (by rw [e])
        constructor
        · intro hh
          split at hh
          · cases hh
          · rename_i p args' hd
            obtain ⟨more, rfl, hl⟩ := (doLongs_iff h _ _ _ _).1 hd
            rw [Option.map_eq_some_iff] at hh
            obtain ⟨⟨qs, as⟩, hq, e⟩ := hh
            cases e
            have hlen' : args'.length ≤ n := by rw [List.length_append] at hlen; omega
            exact .long hl hne ((ih args' hlen' _).1 hq)
        · have key : ∀ {p : Str × Str} {more args' : List Str} {os' : List (Str × Str)}, args = more ++ args' → Long T p arg more →
              Written T os' rest args' → (match doLongs T arg args with
                | none => none
                | some (p, args) => (getoptGo T n args).map fun x => (p :: x.1, x.2)) = some (p :: os', rest) := by
            intro p more args' os' e hl hw
            rw [(doLongs_iff h arg args args' p).2 ⟨more, e, hl⟩]
            have hlen' : args'.length ≤ n := by rw [e, List.length_append] at hlen; omega
            simp only
            rw [(ih args' hlen' _).2 hw]
            rfl
          intro hh
          cases hh with
          | rest h1 =>
            rcases h1 _ rfl with h2 | h2
            · exact absurd rfl h2
            · cases h2
          | ended => exact absurd rfl hne
          | equals h1 h2 h3 hw => exact key (more := []) rfl (.equals h1 h2 h3) hw
          | separate h1 h2 h3 h4 hw => exact key (more := [_]) rfl (.separate h1 h3 h4) hw
          | flag h1 h2 h3 h4 hw => exact key (more := []) rfl (.flag h1 h3 h4) hw
          | letters h1 => exact absurd rfl h1
      · rename_i c r hne1 hne2
        have hc : c ≠ 45 := fun e => hne2 e
        constructor
        · intro hh
          split at hh
          · cases hh
          · rename_i ps args' hd
            obtain ⟨more, rfl, hl⟩ := (doShorts_iff h _ (by simp) _ _ _).1 hd
            rw [Option.map_eq_some_iff] at hh
            obtain ⟨⟨qs, as⟩, hq, e⟩ := hh
            cases e
            have hlen' : args'.length ≤ n := by rw [List.length_append] at hlen; omega
            exact .letters hc hl ((ih args' hlen' _).1 hq)
        · intro hh
          cases hh with
          | rest h1 =>
            rcases h1 _ rfl with h2 | h2
            · exact absurd rfl h2
            · cases h2
          | ended => exact absurd rfl hc
          | equals => exact absurd rfl hc
          | separate => exact absurd rfl hc
          | flag => exact absurd rfl hc
          | @letters ps os' _ _ more _ args' h1 hl hw =>
            rw [(doShorts_iff h (c :: r) (by simp) _ args' ps).2 ⟨more, rfl, hl⟩]
            have hlen' : args'.length ≤ n := by rw [List.length_append] at hlen; omega
            simp only
            rw [(ih args' hlen' _).2 hw]
            rfl
      · rename_i hne1 hne2 hne3
        constructor
        · intro hh
          cases hh
          refine .rest (fun b hb => ?_)
          cases hb
          cases a with
          | nil => exact .inl (by simp)
          | cons x r =>
            by_cases hx : x = 45
            · subst hx
              cases r with
              | nil => exact .inr rfl
              | cons c r => exact absurd rfl (hne3 c r)
            · exact .inl (by simp [hx])
        · intro hh
          cases hh with
          | rest => rfl
          | ended => exact absurd rfl hne1
          | equals => exact absurd rfl (hne2 _)
          | separate => exact absurd rfl (hne2 _)
          | flag => exact absurd rfl (hne2 _)
          | letters => exact absurd rfl (hne3 _ _)

/-- **C100** (reading): `getopt` finds the options and the other arguments of a command line exactly if the command line is written
so. -/
theorem getopt_iff {T : List Opt} (h : Distinct T) (args : List Str) (os : List (Str × Str)) (rest : List Str) :
    getopt T args = some (os, rest) ↔ Written T os rest args := getoptGo_iff h _ _ (Nat.le_refl _) _ _

/-- The options of the program: letter, and whether a value follows. -/
theorem table_exact : table.map (fun o => (o.long, o.short.map Char.ofNat, o.hasArg)) =
    [(chars "quiet", some 'q', false), (chars "country", some 'C', true), (chars "state", some 's', true), (chars "city", some 'c', true),
     (chars "organization", some 'o', true), (chars "unit", some 'u', true), (chars "hostname", some 'h', true),
     (chars "email", some 'e', true), (chars "filename", some 'f', true), (chars "serial-number", some 'S', true),
     (chars "version", none, false), (chars "help", none, false)] := by decide +kernel

theorem table_distinct : Distinct table := by
  refine ⟨by decide +kernel, by decide +kernel, ?_⟩
  have : ∀ o ∈ table, ∀ p ∈ table, o.short.isSome → o.short = p.short → o = p := by decide +kernel
  intro o ho p hp c h1 h2
  exact this o ho p hp (by rw [h1]; rfl) (by rw [h1, h2])

/-! ## What is made of it -/

/-- The last argument given for an option. -/
def given (os : List (Str × Str)) (name : String) : Option Str := (os.reverse.find? (fun p => p.1 == chars name)).map (·.2)

/-- The text that counts: the last given, or the one assumed. -/
def text (os : List (Str × Str)) (name : String) (assumed : String) : Val := .str ((given os name).getD (chars assumed))

/-- Who the certificate is about. -/
def Subject (os : List (Str × Str)) : Dict Str Val :=
  [(chars "C", text os "country" "US"), (chars "ST", text os "state" "New York"), (chars "L", text os "city" "New York"),
   (chars "O", text os "organization" "Divmod LLC"), (chars "OU", text os "unit" "Security"),
   (chars "CN", text os "hostname" "divmod.com"), (chars "emailAddress", text os "email" "support@divmod.org")]

/-- The number of the certificate. -/
def Serial (E : Env) (os : List (Str × Str)) : Except PyErr Int :=
  match given os "serial-number" with
  | none => .ok 1
  | some s => E.int s

def File (os : List (Str × Str)) : Str := (given os "filename").getD (chars "server.pem")

/-- An option that only asks for information. -/
def Asks (p : Str × Str) : Prop := p.1 = chars "help" ∨ p.1 = chars "version"

instance (p : Str × Str) : Decidable (Asks p) := inferInstanceAs (Decidable (_ ∨ _))

/-- What the loop over the options leaves. -/
theorem dispatch_get (os : List (Str × Str)) (hos : ∀ p ∈ os, ¬ Asks p) (d : Dict Str Val) :
    ∃ d', dispatch os d = .ok d' ∧ ∀ k, Dict.get? d' k =
      match os.reverse.find? (fun p => p.1 == k) with
      | some p => some (if k = quiet then .int 1 else .str p.2)
      | none => Dict.get? d k := by
  induction os generalizing d with
  | nil => exact ⟨d, rfl, fun k => rfl⟩
  | cons p os ih =>
    obtain ⟨k0, v0⟩ := p
    have hp : ¬ (k0 = help ∨ k0 = version) := hos (k0, v0) (by simp)
    have hr := fun q hq => hos q (List.mem_cons_of_mem _ hq)
    have hfind : ∀ k, ((k0, v0) :: os).reverse.find? (fun p => p.1 == k) =
        (match os.reverse.find? (fun p => p.1 == k) with
          | some p => some p
          | none => if k0 = k then some (k0, v0) else none) := by
      intro k
      rw [List.reverse_cons, List.find?_append]
      cases os.reverse.find? (fun p => p.1 == k) with
      | some p => rfl
      | none =>
        by_cases hk : k0 = k
        · simp [List.find?, hk]
        · have : (k0 == k) = false := by simpa using hk
          simp [List.find?, this, hk]
    have key : ∀ val : Val, val = (if k0 = quiet then .int 1 else .str v0) → ∃ d', dispatch os (Dict.set d k0 val) = .ok d' ∧
        ∀ k, Dict.get? d' k = match ((k0, v0) :: os).reverse.find? (fun p => p.1 == k) with
          | some p => some (if k = quiet then .int 1 else .str p.2)
          | none => Dict.get? d k := by
      intro val hval
      obtain ⟨d', h1, h2⟩ := ih hr (Dict.set d k0 val)
      refine ⟨d', h1, fun k => ?_⟩
      rw [h2 k, hfind k]
      cases os.reverse.find? (fun p => p.1 == k) with
      | some p => rfl
      | none =>
        by_cases hk : k0 = k
        · subst hk
          simp only [if_true, Dict.get?_set_same, hval]
        · simp only [if_neg hk]
          exact Dict.get?_set_other _ _ _ _ hk
    rw [dispatch, if_neg hp]
    by_cases hq : k0 = quiet
    · rw [if_pos hq]; exact key _ (by rw [if_pos hq])
    · rw [if_neg hq]; exact key _ (by rw [if_neg hq])

theorem dispatch_asks (os : List (Str × Str)) (hos : ∃ p ∈ os, Asks p) (d : Dict Str Val) : dispatch os d = .error .shown := by
  induction os generalizing d with
  | nil => obtain ⟨_, h, _⟩ := hos; cases h
  | cons p os ih =>
    obtain ⟨k0, v0⟩ := p
    rw [dispatch]
    by_cases hp : k0 = help ∨ k0 = version
    · rw [if_pos hp]
    · rw [if_neg hp]
      have : ∃ p ∈ os, Asks p := by
        obtain ⟨q, h1, h2⟩ := hos
        rcases List.mem_cons.1 h1 with rfl | h1
        · exact absurd h2 hp
        · exact ⟨q, h1, h2⟩
      split <;> exact ih this _

/-- **C100**: what certcreate does with the command line that gives the options `os`. -/
theorem main_spec (E : Env) (args : List Str) (os : List (Str × Str)) (h : Written table os [] args) (hos : ∀ p ∈ os, ¬ Asks p) :
    main E args =
      match Serial E os with
      | .error e => ([], .raised e)
      | .ok n =>
        match E.sign n (Subject os) with
        | .error e => ([], .raised e)
        | .ok cert =>
          match E.write (File os) with
          | .error e => ([], .raised e)
          | .ok _ => (.wrote (File os) cert :: (if given os "quiet" = none then [.printed cert] else []), .made cert) := by
  obtain ⟨d, h1, h2⟩ := dispatch_get os hos defaults
  have hstr : ∀ name assumed, chars name ≠ quiet → Dict.get? defaults (chars name) = some (.str (chars assumed)) →
      Dict.get? d (chars name) = some (text os name assumed) := by
    intro name assumed hq hd
    rw [h2, hd]
    unfold text given
    cases os.reverse.find? (fun p => p.1 == chars name) with
    | none => rfl
    | some p => simp [hq]
  have hC := hstr "country" "US" (by decide +kernel) (by decide +kernel)
  have hST := hstr "state" "New York" (by decide +kernel) (by decide +kernel)
  have hL := hstr "city" "New York" (by decide +kernel) (by decide +kernel)
  have hO := hstr "organization" "Divmod LLC" (by decide +kernel) (by decide +kernel)
  have hOU := hstr "unit" "Security" (by decide +kernel) (by decide +kernel)
  have hCN := hstr "hostname" "divmod.com" (by decide +kernel) (by decide +kernel)
  have hE := hstr "email" "support@divmod.org" (by decide +kernel) (by decide +kernel)
  have hF := hstr "filename" "server.pem" (by decide +kernel) (by decide +kernel)
  have hsub : subject d fields [] = .ok (Subject os) := by
    simp only [fields, subject, hC, hST, hL, hO, hOU, hCN, hE]
    rfl
  have hser : ∃ v, Dict.get? d (chars "serial-number") = some v ∧ serialNumber E v = Serial E os := by
    rw [h2]
    unfold Serial given
    cases os.reverse.find? (fun p => p.1 == chars "serial-number") with
    | none => exact ⟨.int 1, by decide +kernel, rfl⟩
    | some p => exact ⟨.str p.2, congrArg some (if_neg (by decide +kernel)), rfl⟩
  have hq : Dict.get? d quiet = some (if given os "quiet" = none then .int 0 else .int 1) := by
    rw [h2]
    unfold given quiet
    cases os.reverse.find? (fun p => p.1 == chars "quiet") with
    | none => decide +kernel
    | some p => simp
  obtain ⟨v, hv1, hv2⟩ := hser
  unfold main parseOptions
  rw [(getopt_iff table_distinct args os []).2 h]
  simp only [h1, if_true]
  unfold create
  simp only [hsub, hv1, hF, hq, hv2]
  cases Serial E os with
  | error e => rfl
  | ok n =>
    simp only
    cases E.sign n (Subject os) with
    | error e => rfl
    | ok cert =>
      simp only [text]
      show (match E.write (File os) with | .error e => _ | .ok _ => _) = _
      cases E.write (File os) with
      | error e => rfl
      | ok _ =>
        simp only
        by_cases hg : given os "quiet" = none
        · simp only [hg, if_true]
          rfl
        · simp only [hg, if_false]
          rfl

/-- **C100**: a command line that asks for the help or the version shows it, and makes nothing. -/
theorem main_asks (E : Env) (args rest : List Str) (os : List (Str × Str)) (h : Written table os rest args)
    (hos : ∃ p ∈ os, Asks p) : main E args = ([], .shown) := by
  unfold main parseOptions
  rw [(getopt_iff table_distinct args os rest).2 h]
  simp only [dispatch_asks os hos]

/-- **C100**: a command line that is not written as it should be, or that has arguments other than options, ends the program with a
message, and nothing is made. -/
theorem main_refuses_partial (E : Env) (args : List Str)
    (h : ∀ os rest, Written table os rest args → rest ≠ [] ∧ ∀ p ∈ os, ¬ Asks p) : main E args = ([], .usage) := by
  unfold main parseOptions
  cases hg : getopt table args with
  | none => rfl
  | some x =>
    obtain ⟨os, rest⟩ := x
    have hw := (getopt_iff table_distinct args os rest).1 hg
    obtain ⟨d, h1, _⟩ := dispatch_get os (h os rest hw).2 defaults
    simp only [h1, if_neg (h os rest hw).1]

/-- **C100**: a file is written, or something printed, only when the certificate is made; and then the file holds that
certificate. -/
theorem written_only_made (E : Env) (args : List Str) :
    ((main E args).1 ≠ [] ↔ ∃ c, (main E args).2 = .made c) ∧
    ∀ c, (main E args).2 = .made c → ∃ f more, (main E args).1 = .wrote f c :: more ∧ E.write f = .ok () ∧
      ∃ n s, E.sign n s = .ok c := by
  have key : ∀ o, ((create E o).1 = [] ∧ ∀ c, (create E o).2 ≠ .made c) ∨ ∃ f more c, create E o = (.wrote f c :: more, .made c) ∧
      E.write f = .ok () ∧ ∃ n s, E.sign n s = .ok c := by
    intro o
    unfold create
    repeat' split
    all_goals first
      | exact .inl ⟨rfl, fun c e => by cases e⟩
      | exact .inr ⟨_, _, _, rfl, by assumption, _, _, by assumption⟩
  have hdisp : ∀ os d e, dispatch os d = .error e → ∀ c, e ≠ .made c := by
    intro os
    induction os with
    | nil => intro d e h; cases h
    | cons p os ih =>
      intro d e h
      rw [dispatch] at h
      split at h
      · cases h; intro c hc; cases hc
      · split at h <;> exact ih _ _ h
  have hparse : ∀ e, parseOptions args = .error e → ∀ c, e ≠ .made c := by
    intro e h
    unfold parseOptions at h
    split at h
    · cases h; intro c hc; cases hc
    · split at h
      · rename_i e' he
        cases h
        exact hdisp _ _ _ he
      · split at h
        · cases h
        · cases h; intro c hc; cases hc
  unfold main
  cases hp : parseOptions args with
  | error e =>
    simp only
    exact ⟨⟨fun h => absurd rfl h, fun ⟨c, hc⟩ => absurd hc (hparse e hp c)⟩, fun c hc => absurd hc (hparse e hp c)⟩
  | ok o =>
    simp only
    rcases key o with ⟨h1, h2⟩ | ⟨f, more, c, h1, h2, h3⟩
    · exact ⟨⟨fun h => absurd h1 h, fun ⟨c, hc⟩ => absurd hc (h2 c)⟩, fun c hc => absurd hc (h2 c)⟩
    · rw [h1]
      refine ⟨⟨fun _ => ⟨c, rfl⟩, fun _ => by simp⟩, fun c' hc => ?_⟩
      cases hc
      exact ⟨f, more, rfl, h2, h3⟩

/-- A world in which one-digit numbers are read, and all certificates are the same. -/
def E0 : Env where
  int s := match s with
    | [c] => if 48 ≤ c ∧ c ≤ 57 then .ok (Int.ofNat (c - 48)) else .error .valueError
    | _ => .error .valueError
  sign n _ := .ok n.toNat
  write _ := .ok ()

/-- The property fails for every mistake in the number: whatever else the command line gives, and whatever signing and writing
would do, a text that `int` refuses escapes as `ValueError`. -/
theorem bad_serial_fails (E : Env) (args : List Str) (os : List (Str × Str)) (h : Written table os [] args) (hos : ∀ p ∈ os, ¬ Asks p)
    (s : Str) (hs : given os "serial-number" = some s) (hi : E.int s = .error .valueError) :
    main E args = ([], .raised .valueError) := by
  have hn : Serial E os = .error .valueError := by unfold Serial; rw [hs]; exact hi
  rw [main_spec E args os h hos, hn]

/-- `-S x` is such a command line. -/
example : Written table [(chars "serial-number", chars "x")] [] [chars "-S", chars "x"] ∧
    given [(chars "serial-number", chars "x")] "serial-number" = some (chars "x") ∧ E0.int (chars "x") = .error .valueError ∧
    main E0 [chars "-S", chars "x"] = ([], .raised .valueError) :=
  ⟨(getopt_iff table_distinct _ _ _).1 (by decide +kernel), by decide +kernel, rfl, by decide +kernel⟩

/-- `-qhhost --co=DE -S 7 --file x`: letters together, a value attached, abbreviations. -/
def argv : List Str := [chars "-qhhost", chars "--co=DE", chars "-S", chars "7", chars "--file", chars "x"]

def opts0 : List (Str × Str) :=
  [(chars "quiet", []), (chars "hostname", chars "host"), (chars "country", chars "DE"), (chars "serial-number", chars "7"),
   (chars "filename", chars "x")]

theorem argv_written : Written table opts0 [] argv := (getopt_iff table_distinct _ _ _).1 (by decide +kernel)

example : main E0 argv = ([.wrote (chars "x") 7], .made 7) ∧
    Subject opts0 = [(chars "C", .str (chars "DE")), (chars "ST", .str (chars "New York")), (chars "L", .str (chars "New York")),
      (chars "O", .str (chars "Divmod LLC")), (chars "OU", .str (chars "Security")), (chars "CN", .str (chars "host")),
      (chars "emailAddress", .str (chars "support@divmod.org"))] ∧
    main E0 argv = (match Serial E0 opts0 with
      | .error e => ([], .raised e)
      | .ok n =>
        match E0.sign n (Subject opts0) with
        | .error e => ([], .raised e)
        | .ok cert =>
          match E0.write (File opts0) with
          | .error e => ([], .raised e)
          | .ok _ => (.wrote (File opts0) cert :: (if given opts0 "quiet" = none then [.printed cert] else []), .made cert)) :=
  ⟨by decide +kernel, by decide +kernel, main_spec E0 argv opts0 argv_written (by decide +kernel)⟩

/-- The last value counts. -/
example : main E0 [chars "-S1", chars "--serial-number=2"] = ([.wrote (chars "server.pem") 2, .printed 2], .made 2) := by
  decide +kernel

/-- Not by `-h`, which is the host. -/
example : main E0 [chars "-q", chars "--help", chars "more"] = ([], .shown) ∧ main E0 [chars "-h"] = ([], .usage) := by
  decide +kernel

example : main E0 [chars "--he", chars "x"] = ([], .shown) :=
  main_asks E0 _ [chars "x"] [(chars "help", [])] ((getopt_iff table_distinct _ _ _).1 (by decide +kernel))
    ⟨_, List.mem_cons_self, .inl rfl⟩

/-- Ambiguous abbreviations, flags with values, options without theirs, and other arguments are refused. -/
example : ∀ a ∈ [[chars "--c=US"], [chars "--quiet=1"], [chars "-C"], [chars "server.pem"], [chars "-q", chars "--", chars "-q"],
    [chars "-x"]], main E0 a = ([], .usage) := by
  intro a ha
  have hw : ∀ a ∈ [[chars "--c=US"], [chars "--quiet=1"], [chars "-C"], [chars "server.pem"],
      [chars "-q", chars "--", chars "-q"], [chars "-x"]],
      ∀ x ∈ (getopt table a).toList, x.2 ≠ [] ∧ ∀ p ∈ x.1, ¬ Asks p := by decide +kernel
  apply main_refuses_partial
  intro os rest h
  exact hw a ha (os, rest) (by rw [(getopt_iff table_distinct _ _ _).2 h]; simp)

end Verif.Certcreate
