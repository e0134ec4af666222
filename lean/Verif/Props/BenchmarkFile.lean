import Verif.Lemmas.BenchmarkFile
import Verif.Lemmas.JuiceBytes
import Verif.Props.BenchmarkReport
/-!
# What the file `output` of benchmark results holds: C115
-/
namespace Verif.BenchmarkFile
open Verif.Py Verif.Juice Verif.JuiceArgs
open Verif.Benchmark (Report Bench later)

/-! ## What is to be found in the file -/

/-- A text. -/
def T (s : String) : Str := s.toList.map Char.toNat

/-- The items of the box of a report that are arguments. -/
def fields (E : Env) (r : Report) : List (Str × Str) :=
  [(T "version", T "0"),
   (T "error", T (if r.error then "True" else "False")),
   (T "timeout", T (if r.timeout then "True" else "False")),
   (T "name", r.name),
   (T "host", E.host),
   (T "sector_size", intStr r.sectorSize),
   (T "python_version", intStr E.hexversion),
   (T "twisted_version", E.twisted),
   (T "divmod_version", E.epsilon),
   (T "elapsed", E.showTime r.elapsed),
   (T "filesystem_growth", intStr r.growth)] ++
  (match r.counts with
   | some [rc, rs, wc, ws] => [(T "read_count", intStr rc), (T "read_sectors", intStr rs), (T "write_count", intStr wc),
      (T "write_sectors", intStr ws)]
   | _ => []) ++
  (match r.blocked with
   | some [rm, wm] => [(T "read_ms", intStr rm), (T "write_ms", intStr wm)]
   | _ => [])

/-- The items of the box of a report. -/
def entry (E : Env) (r : Report) : List (Str × Str) := fields E r ++ [(T "_command", T "Result")]

/-- Texts without surrogates. -/
def Clean (s : Str) : Prop := ∀ c ∈ s, IsScalar c

/-- Surroundings whose texts can be encoded. -/
structure Sane (E : Env) : Prop where
  host : Clean E.host
  twisted : Clean E.twisted
  epsilon : Clean E.epsilon
  showTime : ∀ n, Clean (E.showTime n)

instance : DecidablePred Clean := fun s => inferInstanceAs (Decidable (∀ c ∈ s, IsScalar c))

/-- The reports of a benchmark that get into the file: all that are made, unless its name has a surrogate. -/
def reported (x : Run) : List Report :=
  if Clean x.name then (later x.name x.sectorSize x.bench x.outcome).1 else []

/-! ## Reports have the right shape -/

/-- Four partition counters and two disk counters, or none. -/
def Shape (r : Report) : Prop :=
  (r.counts = none ∨ ∃ a b c d, r.counts = some [a, b, c, d]) ∧ (r.blocked = none ∨ ∃ a b, r.blocked = some [a, b])

theorem mapM_length {α β : Type} {f : α → Except PyErr β} {l : List α} {ys : List β} (h : l.mapM f = .ok ys) :
    ys.length = l.length := by
  induction l generalizing ys with
  | nil => cases h; rfl
  | cons a l ih =>
    rw [List.mapM_cons] at h
    cases ha : f a with
    | error e => rw [ha] at h; cases h
    | ok y =>
      rw [ha] at h
      cases hl : l.mapM f with
      | error e => rw [hl] at h; cases h
      | ok zs => rw [hl] at h; cases h; simp [ih hl]

theorem differences_shape {a b : Option Benchmark.Stat} {names : List Structlike.Name} {o : Option (List Int)}
    (h : Benchmark.differences a b names = .ok o) : o = none ∨ ∃ l, o = some l ∧ l.length = names.length := by
  unfold Benchmark.differences at h
  cases a with
  | none => cases h; exact .inl rfl
  | some a =>
    cases b with
    | none => cases h
    | some b =>
      simp only at h
      cases hm : names.mapM (Benchmark.minus a b) with
      | error e => rw [hm] at h; cases h
      | ok l => rw [hm] at h; cases h; exact .inr ⟨l, rfl, mapM_length hm⟩

theorem formatResults_shape {name : Str} {sector : Int} {b a : Benchmark.Snapshot} {e t : Bool} {r : Report}
    (h : Benchmark.formatResults name sector b a e t = .ok r) : Shape r ∧ r.name = name := by
  unfold Benchmark.formatResults at h
  cases h1 : Benchmark.differences a.partition b.partition Benchmark.partitionNames with
  | error x => rw [h1] at h; cases h
  | ok counts =>
    rw [h1] at h
    cases h2 : Benchmark.differences a.disk b.disk Benchmark.msNames with
    | error x => rw [h2] at h; cases h
    | ok blocked =>
      rw [h2] at h
      cases h
      refine ⟨⟨?_, ?_⟩, rfl⟩
      · rcases differences_shape h1 with h | ⟨l, h, hl⟩
        · exact .inl h
        · right
          match l, hl with
          | [a, b, c, d], _ => exact ⟨a, b, c, d, h⟩
      · rcases differences_shape h2 with h | ⟨l, h, hl⟩
        · exact .inl h
        · right
          match l, hl with
          | [a, b], _ => exact ⟨a, b, h⟩

theorem reportChange_shape {name : Str} {sector : Int} {c : Benchmark.Change} {e : Bool} {r : Report}
    (h : Benchmark.reportChange name sector c e = .ok r) : Shape r ∧ r.name = name := by
  unfold Benchmark.reportChange at h
  split at h
  · exact formatResults_shape h
  · cases h

theorem later_shape {name : Str} {sector : Int} {b : Bench} {o : Benchmark.Outcome} {r : Report}
    (h : r ∈ (later name sector b o).1) : Shape r ∧ ∃ suffix, r.name = name ++ suffix ∧ Clean suffix := by
  have c1 : Clean Benchmark.overallSuffix := by unfold Clean; decide
  have c2 : Clean Benchmark.benchmarkSuffix := by unfold Clean; decide
  unfold later at h
  split at h
  · dsimp only at h
    split at h
    · cases h
    · rename_i r1 h1
      split at h
      · rw [List.mem_singleton] at h
        subst h
        exact ⟨(reportChange_shape h1).1, _, (reportChange_shape h1).2, c1⟩
      · rename_i r2 h2
        rcases List.mem_cons.1 h with rfl | h
        · exact ⟨(reportChange_shape h1).1, _, (reportChange_shape h1).2, c1⟩
        · rw [List.mem_singleton] at h
          subst h
          exact ⟨(reportChange_shape h2).1, _, (reportChange_shape h2).2, c2⟩
  · cases h

/-! ## One report -/

/-- The names of the arguments. -/
def names : List Str :=
  [T "version", T "error", T "timeout", T "name", T "host", T "sector_size", T "python_version", T "twisted_version",
   T "divmod_version", T "elapsed", T "filesystem_growth", T "read_count", T "read_sectors", T "write_count", T "write_sectors",
   T "read_ms", T "write_ms"]

/-- The names of the arguments as they are given. -/
def given : List Str :=
  [T "version", T "error", T "timeout", T "name", T "host", T "elapsed", T "sector_size", T "read_count", T "read_sectors",
   T "read_ms", T "write_count", T "write_sectors", T "write_ms", T "filesystem_growth", T "python_version", T "twisted_version",
   T "divmod_version"]

theorem args_names (U : Uni) (E : Env) : (resultsArgs U E).map Prod.fst = names := rfl

theorem kwargs_names (E : Env) (r : Report) : (kwargs E r).map Prod.fst = given := rfl

theorem names_legal : ∀ n ∈ names, (WireKey n ∧ CanonicalKey n) ∧ n ≠ LENGTH ∧ n ≠ BODY := by
  have h : ∀ n ∈ names, (n.all (fun c => c < 128 && c != 58 && c != 13 && c != 32 && c != 45 && !(65 ≤ c && c ≤ 90)) = true ∧
      n ∉ keywords) ∧ n ≠ LENGTH ∧ n ≠ BODY := by decide +kernel
  exact fun n hn => ⟨JuiceBytes.key_legal (h n hn).1.1 (h n hn).1.2, (h n hn).2⟩

theorem given_names : ∀ n ∈ given, n ∈ names := by decide +kernel

theorem normalizeObjects_id (U : Uni) (l : List (Str × Obj)) (hk : ∀ p ∈ l, normalizeKey U p.1 = p.1)
    (hn : (l.map Prod.fst).Nodup) : normalizeObjects U l = l := by
  have key : ∀ (l d : List (Str × Obj)), (∀ p ∈ l, normalizeKey U p.1 = p.1) → ((d ++ l).map Prod.fst).Nodup →
      l.foldl (fun d p => Dict.set d (normalizeKey U p.1) p.2) d = d ++ l := by
    intro l
    induction l with
    | nil => intro d _ _; simp
    | cons p l ih =>
      intro d hk hn
      obtain ⟨k, v⟩ := p
      rw [List.foldl_cons, hk _ (by simp), Dict.set_of_not_mem, ih _ (fun q hq => hk q (by simp [hq]))]
      · simp
      · simpa using hn
      · intro hm
        rw [List.map_append, List.nodup_append] at hn
        exact hn.2.2 k hm k (by simp) rfl
  simpa [normalizeObjects] using key l [] hk (by simpa using hn)

theorem kwargs_normal (U : Uni) (E : Env) (r : Report) : normalizeObjects U (kwargs E r) = kwargs E r := by
  apply normalizeObjects_id
  · intro p hp
    have : p.1 ∈ given := by rw [← kwargs_names E r]; exact List.mem_map.2 ⟨p, hp, rfl⟩
    have := (names_legal _ (given_names _ this)).1
    exact JuiceArgs.normalizeKey_canonical U _ this.1 this.2
  · rw [kwargs_names]; decide +kernel

theorem not_forgotten (U : Uni) (E : Env) (r : Report) : commandInit U (resultsArgs U E) (kwargs E r) = .ok (kwargs E r) := by
  have hnorm : ∀ n ∈ names, normalizeKey U n = n :=
    fun n hn => JuiceArgs.normalizeKey_canonical U _ (names_legal n hn).1.1 (names_legal n hn).1.2
  have hall : ∀ n ∈ names, n ∈ given := by decide +kernel
  have hf : forgotten U (resultsArgs U E) (kwargs E r) = [] := by
    unfold forgotten
    simp only [List.map_eq_nil_iff, List.filter_eq_nil_iff]
    intro a ha
    have ha' : a.1 ∈ names := by rw [← args_names U E]; exact List.mem_map.2 ⟨a, ha, rfl⟩
    have : normalizeKey U a.1 ∈ (kwargs E r).map fun p => normalizeKey U p.1 := by
      have hg := hall _ ha'
      rw [← kwargs_names E r] at hg
      obtain ⟨p, hp, e⟩ := List.mem_map.1 hg
      exact List.mem_map.2 ⟨p, hp, by rw [e]⟩
    simp [this]
  unfold commandInit
  rw [if_pos hf]

theorem encInt (U : Uni) (o : Bool) (n : Int) : Enc (integer U o) (some (.int n)) (some (.text (intStr n))) :=
  .inl ⟨_, _, rfl, by simp [Obj.isNone], rfl, rfl⟩

theorem encNone (U : Uni) : Enc (integer U true) (some .none) none := .inr ⟨rfl, .inr rfl, rfl⟩

theorem encBool (b : Bool) : Enc (boolean false) (some (.bool b)) (some (.text (T (if b then "True" else "False")))) :=
  .inl ⟨_, _, rfl, by simp [Obj.isNone], by cases b <;> rfl, rfl⟩

theorem encUni {s : Str} {b : Bytes} (h : utf8Encode s = some b) : Enc (unicode false) (some (.str s)) (some (.raw b)) :=
  .inl ⟨_, _, rfl, by simp [Obj.isNone], by simp [unicode, encodedString, utf8, h], rfl⟩

theorem encFloat (E : Env) (n : Int) : Enc (float E false) (some (.int n)) (some (.text (E.showTime n))) :=
  .inl ⟨_, _, rfl, by simp [Obj.isNone], rfl, rfl⟩

theorem clean_intStr (n : Int) : Clean (intStr n) := by
  have hd : ∀ m, Clean (natStr m) := by
    intro m c hc
    have := natStr_isDigit m c hc
    unfold isDigit at this
    simp at this; unfold IsScalar; omega
  unfold intStr
  split
  · intro c hc
    rcases List.mem_cons.1 hc with rfl | hc
    · unfold IsScalar; omega
    · exact hd _ c hc
  · exact hd _

/-- The texts of the arguments. -/
theorem args_written (U : Uni) (E : Env) (r : Report) (hs : Shape r) (hE : Sane E) (hc : Clean r.name) :
    ∀ n c, (n, c) ∈ resultsArgs U E → (Enc c (Dict.get? (kwargs E r) n) none ∧ Dict.get? (fields E r) n = none) ∨
      ∃ w t, Enc c (Dict.get? (kwargs E r) n) (some w) ∧ WireText w t ∧ Dict.get? (fields E r) n = some t := by
  obtain ⟨b1, e1⟩ := utf8Encode_some _ hc
  obtain ⟨b2, e2⟩ := utf8Encode_some _ hE.host
  obtain ⟨b3, e3⟩ := utf8Encode_some _ hE.twisted
  obtain ⟨b4, e4⟩ := utf8Encode_some _ hE.epsilon
  obtain ⟨b5, e5⟩ := utf8Encode_some _ (clean_intStr E.hexversion)
  obtain ⟨name, error, timeout, sector, elapsed, growth, counts, blocked⟩ := r
  suffices h : ∀ p ∈ resultsArgs U E, (Enc p.2 (Dict.get? (kwargs E ⟨name, error, timeout, sector, elapsed, growth, counts, blocked⟩) p.1) none ∧
      Dict.get? (fields E ⟨name, error, timeout, sector, elapsed, growth, counts, blocked⟩) p.1 = none) ∨
      ∃ w t, Enc p.2 (Dict.get? (kwargs E ⟨name, error, timeout, sector, elapsed, growth, counts, blocked⟩) p.1) (some w) ∧ WireText w t ∧
        Dict.get? (fields E ⟨name, error, timeout, sector, elapsed, growth, counts, blocked⟩) p.1 = some t from
    fun n c hm => h (n, c) hm
  simp only [resultsArgs, List.forall_mem_cons]
  obtain ⟨h1, h2⟩ := hs
  simp only at h1 h2
  refine ⟨.inr ⟨_, _, encInt U false 0, rfl, rfl⟩, .inr ⟨_, _, encBool error, rfl, rfl⟩, .inr ⟨_, _, encBool timeout, rfl, rfl⟩,
    .inr ⟨_, _, encUni e1, e1, rfl⟩, .inr ⟨_, _, encUni e2, e2, rfl⟩, .inr ⟨_, _, encInt U false sector, rfl, rfl⟩,
    .inr ⟨_, _, encUni e5, e5, rfl⟩, .inr ⟨_, _, encUni e3, e3, rfl⟩, .inr ⟨_, _, encUni e4, e4, rfl⟩,
    .inr ⟨_, _, encFloat E elapsed, rfl, rfl⟩, .inr ⟨_, _, encInt U false growth, rfl, rfl⟩, ?_⟩
  rcases h1 with rfl | ⟨a1, a2, a3, a4, rfl⟩ <;> rcases h2 with rfl | ⟨a5, a6, rfl⟩
  · exact ⟨.inl ⟨encNone U, rfl⟩, .inl ⟨encNone U, rfl⟩, .inl ⟨encNone U, rfl⟩, .inl ⟨encNone U, rfl⟩, .inl ⟨encNone U, rfl⟩,
      .inl ⟨encNone U, rfl⟩, by simp⟩
  · exact ⟨.inl ⟨encNone U, rfl⟩, .inl ⟨encNone U, rfl⟩, .inl ⟨encNone U, rfl⟩, .inl ⟨encNone U, rfl⟩,
      .inr ⟨_, _, encInt U true a5, rfl, rfl⟩, .inr ⟨_, _, encInt U true a6, rfl, rfl⟩, by simp⟩
  · exact ⟨.inr ⟨_, _, encInt U true a1, rfl, rfl⟩, .inr ⟨_, _, encInt U true a2, rfl, rfl⟩, .inr ⟨_, _, encInt U true a3, rfl, rfl⟩,
      .inr ⟨_, _, encInt U true a4, rfl, rfl⟩, .inl ⟨encNone U, rfl⟩, .inl ⟨encNone U, rfl⟩, by simp⟩
  · exact ⟨.inr ⟨_, _, encInt U true a1, rfl, rfl⟩, .inr ⟨_, _, encInt U true a2, rfl, rfl⟩, .inr ⟨_, _, encInt U true a3, rfl, rfl⟩,
      .inr ⟨_, _, encInt U true a4, rfl, rfl⟩, .inr ⟨_, _, encInt U true a5, rfl, rfl⟩, .inr ⟨_, _, encInt U true a6, rfl, rfl⟩, by simp⟩

theorem fields_keys (E : Env) (r : Report) (hs : Shape r) :
    ((fields E r).map Prod.fst).Nodup ∧ ∀ k ∈ (fields E r).map Prod.fst, k ∈ names := by
  obtain ⟨name, error, timeout, sector, elapsed, growth, counts, blocked⟩ := r
  obtain ⟨h1, h2⟩ := hs
  simp only at h1 h2
  rcases h1 with rfl | ⟨a1, a2, a3, a4, rfl⟩ <;> rcases h2 with rfl | ⟨a5, a6, rfl⟩
  · have : (fields E ⟨name, error, timeout, sector, elapsed, growth, none, none⟩).map Prod.fst = names.take 11 := rfl
    rw [this]; decide +kernel
  · have : (fields E ⟨name, error, timeout, sector, elapsed, growth, none, some [a5, a6]⟩).map Prod.fst =
      names.take 11 ++ names.drop 15 := rfl
    rw [this]; decide +kernel
  · have : (fields E ⟨name, error, timeout, sector, elapsed, growth, some [a1, a2, a3, a4], none⟩).map Prod.fst = names.take 15 := rfl
    rw [this]; decide +kernel
  · have : (fields E ⟨name, error, timeout, sector, elapsed, growth, some [a1, a2, a3, a4], some [a5, a6]⟩).map Prod.fst = names := rfl
    rw [this]; decide +kernel

theorem fields_clean (E : Env) (r : Report) (hE : Sane E) (hc : Clean r.name) : ∀ p ∈ fields E r, Clean p.2 := by
  have hb : ∀ b : Bool, Clean (T (if b then "True" else "False")) := by
    intro b
    cases b <;> (unfold Clean; decide +kernel)
  have h0 : Clean (T "0") := by unfold Clean; decide +kernel
  intro p hp
  simp only [fields, List.mem_append, List.mem_cons, List.not_mem_nil, or_false] at hp
  rcases hp with ((rfl | rfl | rfl | rfl | rfl | rfl | rfl | rfl | rfl | rfl | rfl) | hp) | hp
  · exact h0
  · exact hb _
  · exact hb _
  · exact hc
  · exact hE.host
  · exact clean_intStr _
  · exact clean_intStr _
  · exact hE.twisted
  · exact hE.epsilon
  · exact hE.showTime _
  · exact clean_intStr _
  · split at hp
    · simp only [List.mem_cons, List.not_mem_nil, or_false] at hp
      rcases hp with rfl | rfl | rfl | rfl <;> exact clean_intStr _
    · cases hp
  · split at hp
    · simp only [List.mem_cons, List.not_mem_nil, or_false] at hp
      rcases hp with rfl | rfl <;> exact clean_intStr _
    · cases hp

/-- The bytes of a report are those of a legal box with the items of the report. -/
theorem report_box (U : Uni) (E : Env) (hE : Sane E) (r : Report) (hs : Shape r) (hc : Clean r.name) :
    ∃ tb, formatBytes U E r = Juice.serialize tb ∧ LegalBox tb ∧ SameBox (entry E r) tb := by
  obtain ⟨hk1, hk2⟩ := fields_keys E r hs
  obtain ⟨box, objs', tb, h1, h2, h3⟩ := written (resultsArgs U E) (by rw [args_names]; decide +kernel) (kwargs E r) (fields E r) hk1
    (fun p hp => by rw [args_names]; exact hk2 _ (List.mem_map.2 ⟨p, hp, rfl⟩)) (args_written U E r hs hE hc)
  have hcmd : JuiceRpc.COMMAND = T "_command" := by decide +kernel
  have hmem : ∀ p ∈ tb, p.1 ∈ names := fun p hp => hk2 _ (List.mem_map.2 ⟨p, (h3.2 p).1 hp, rfl⟩)
  have hbk : ∀ p ∈ box, p.1 ∈ names := by
    clear h1 h3
    intro p hp
    induction h2 with
    | nil => cases hp
    | cons hq _ ih =>
      rcases List.mem_cons.1 hp with rfl | hp
      · rw [hq.1]; exact hmem _ (by simp)
      · exact ih (fun p hp => hmem p (by simp [hp])) hp
  have hcn : T "_command" ∉ names := by decide +kernel
  have hset : Dict.set box JuiceRpc.COMMAND (.text (chars "Result")) = box ++ [(T "_command", .text (T "Result"))] := by
    rw [hcmd, Dict.set_of_not_mem]
    · rfl
    · intro hm
      obtain ⟨p, hp, e⟩ := List.mem_map.1 hm
      exact hcn (e ▸ hbk p hp)
  refine ⟨tb ++ [(T "_command", T "Result")], ?_, ?_, ?_, ?_⟩
  · unfold formatBytes
    rw [not_forgotten]
    simp only [bind, Except.bind, objectsToStrings, kwargs_normal, h1, pure, Except.pure]
    rw [hset]
    apply serialize_eq
    apply List.rel_append
    · have : ∀ {l : Dict Str Val} {l' : Box}, List.Forall₂ (fun p q => p.1 = q.1 ∧ WireText p.2 q.2) l l' → (∀ p ∈ l, p.1 ∈ names) →
          List.Forall₂ (fun p q => p.1 = q.1 ∧ p.1 ≠ BODY ∧ WireText p.2 q.2) l l' := by
        intro l l' h
        induction h with
        | nil => exact fun _ => .nil
        | cons hp _ ih =>
          exact fun hl => .cons ⟨hp.1, (names_legal _ (hl _ (by simp))).2.2, hp.2⟩ (ih fun p hp => hl p (by simp [hp]))
      exact this h2 hbk
    · exact .cons ⟨rfl, by decide +kernel, rfl⟩ .nil
  · exact {
      wf := by
        rw [List.map_append, List.nodup_append]
        refine ⟨h3.1, by simp, ?_⟩
        intro a ha b hb e
        obtain ⟨p, hp, rfl⟩ := List.mem_map.1 ha
        simp only [List.map_cons, List.map_nil, List.mem_singleton] at hb
        exact hcn (hb ▸ e ▸ hmem p hp)
      noLength := by
        intro p hp
        rcases List.mem_append.1 hp with hp | hp
        · exact (names_legal _ (hmem p hp)).2.1
        · rw [List.mem_singleton] at hp; subst hp; decide +kernel
      keys := by
        intro p hp
        rcases List.mem_append.1 hp with hp | hp
        · exact (names_legal _ (hmem p hp)).1
        · rw [List.mem_singleton] at hp; subst hp
          exact JuiceBytes.key_legal (by decide +kernel) (by decide +kernel)
      values := by
        intro p hp
        rcases List.mem_append.1 hp with hp | hp
        · exact fields_clean E r hE hc p ((h3.2 p).1 hp)
        · rw [List.mem_singleton] at hp; subst hp; decide +kernel
      body := by
        intro p hp e
        rcases List.mem_append.1 hp with hp | hp
        · exact absurd e (names_legal _ (hmem p hp)).2.2
        · rw [List.mem_singleton] at hp; subst hp
          exact absurd e (by decide +kernel) }
  · rw [List.map_append, List.nodup_append]
    refine ⟨h3.1, by simp, ?_⟩
    intro a ha b hb e
    obtain ⟨p, hp, rfl⟩ := List.mem_map.1 ha
    simp only [List.map_cons, List.map_nil, List.mem_singleton] at hb
    exact hcn (hb ▸ e ▸ hmem p hp)
  · intro p
    rw [entry, List.mem_append, List.mem_append, h3.2 p]

/-- A report whose name has a surrogate is not written at all. -/
theorem report_refused (U : Uni) (E : Env) (r : Report) (hc : ¬ Clean r.name) : formatBytes U E r = .error .unicodeError := by
  have hnone : utf8Encode r.name = none := by
    cases h : utf8Encode r.name with
    | none => rfl
    | some b => exact absurd (utf8Encode_scalar h) hc
  have := toBoxAll_error ((resultsArgs U E).take 3) (chars "name") (unicode false) ((resultsArgs U E).drop 4)
    (by show (List.map Prod.fst (resultsArgs U E)).Nodup; rw [args_names]; decide +kernel) [] (kwargs E r)
    (by
      have h : ∀ p ∈ (resultsArgs U E).take 3, ∃ v, Enc p.2 (Dict.get? (kwargs E r) p.1) v := by
        show ∀ p ∈ [(chars "version", integer U false), (chars "error", boolean false), (chars "timeout", boolean false)], _
        simp only [List.forall_mem_cons]
        exact ⟨⟨_, encInt U false 0⟩, ⟨_, encBool r.error⟩, ⟨_, encBool r.timeout⟩, by simp⟩
      exact fun m d hm => h (m, d) hm)
    (.str r.name) .unicodeError rfl rfl (by simp [unicode, encodedString, utf8, hnone])
  unfold formatBytes
  rw [not_forgotten]
  simp only [bind, Except.bind, objectsToStrings, kwargs_normal]
  rw [show resultsArgs U E = (resultsArgs U E).take 3 ++ (chars "name", unicode false) :: (resultsArgs U E).drop 4 from rfl, this]

/-- **C115**: the bytes of one report parse to one box, with exactly the items of the report. -/
theorem report_parsed (U : Uni) (E : Env) (hE : Sane E) (r : Report) (hs : Shape r) (hc : Clean r.name) :
    ∃ x b, formatBytes U E r = .ok x ∧ parseString U x = .ok [b] ∧ SameBox (entry E r) b := by
  obtain ⟨tb, h1, h2, h3⟩ := report_box U E hE r hs hc
  obtain ⟨xs, bs, p1, p2, p3⟩ := parseString_boxes U [tb] (by simpa using h2)
  cases p1 with
  | cons q1 q2 =>
    cases q2
    cases p2 with
    | cons r1 r2 =>
      cases r2
      refine ⟨_, _, h1.trans q1, by simpa using p3, r1.1, fun p => by rw [r1.2, h3.2]⟩

theorem writeAll_clean (U : Uni) (E : Env) (hE : Sane E) (rs : List Report) (h : ∀ r ∈ rs, Shape r ∧ Clean r.name) (file : Bytes)
    (e : Option PyErr) :
    ∃ tbs xs, List.Forall₂ (fun tb x => Juice.serialize tb = .ok x) tbs xs ∧ (∀ tb ∈ tbs, LegalBox tb) ∧
      List.Forall₂ (fun r tb => SameBox (entry E r) tb) rs tbs ∧ writeAll U E file rs e = (file ++ xs.flatten, e) := by
  induction rs generalizing file with
  | nil => exact ⟨[], [], .nil, by simp, .nil, by simp [writeAll]⟩
  | cons r rs ih =>
    obtain ⟨tb, h1, h2, h3⟩ := report_box U E hE r (h r (by simp)).1 (h r (by simp)).2
    obtain ⟨xs, bs, p1, -, -⟩ := parseString_boxes U [tb] (by simpa using h2)
    cases p1 with
    | @cons _ x _ _ q1 q2 =>
      cases q2
      obtain ⟨tbs, xs, k1, k2, k3, k4⟩ := ih (fun r hr => h r (by simp [hr])) (reportResults file x)
      refine ⟨tb :: tbs, x :: xs, .cons q1 k1, ?_, .cons h3 k3, ?_⟩
      · intro t ht
        rcases List.mem_cons.1 ht with rfl | ht
        · exact h2
        · exact k2 t ht
      · rw [writeAll, h1, q1]
        show writeAll U E (reportResults file x) rs e = _
        rw [k4]
        simp [reportResults]

theorem clean_append {s t : Str} : Clean (s ++ t) ↔ Clean s ∧ Clean t := by
  simp [Clean, or_imp, forall_and]

/-- **C115**: a benchmark whose name has a surrogate leaves the file alone; what is raised is a `UnicodeError`, if there was
something to report. -/
theorem bench_refused (U : Uni) (E : Env) (file : Bytes) (x : Run) (hc : ¬ Clean x.name) :
    (bench U E file x).1 = file ∧
      ((later x.name x.sectorSize x.bench x.outcome).1 ≠ [] → (bench U E file x).2 = some .unicodeError) := by
  unfold bench
  dsimp only
  cases hl : (later x.name x.sectorSize x.bench x.outcome).1 with
  | nil => exact ⟨rfl, fun h => absurd rfl h⟩
  | cons r rs =>
    obtain ⟨-, suffix, h1, -⟩ := later_shape (r := r) (by rw [hl]; simp)
    have : ¬ Clean r.name := by rw [h1, clean_append]; exact fun h => hc h.1
    rw [writeAll, report_refused U E r this]
    exact ⟨rfl, fun _ => rfl⟩

theorem bench_written (U : Uni) (E : Env) (hE : Sane E) (file : Bytes) (x : Run) :
    ∃ tbs xs, List.Forall₂ (fun tb x => Juice.serialize tb = .ok x) tbs xs ∧ (∀ tb ∈ tbs, LegalBox tb) ∧
      List.Forall₂ (fun r tb => SameBox (entry E r) tb) (reported x) tbs ∧ (bench U E file x).1 = file ++ xs.flatten := by
  unfold reported
  by_cases hc : Clean x.name
  · rw [if_pos hc]
    obtain ⟨tbs, xs, h1, h2, h3, h4⟩ := writeAll_clean U E hE (later x.name x.sectorSize x.bench x.outcome).1
      (fun r hr => by
        obtain ⟨k1, suffix, k2, k3⟩ := later_shape hr
        exact ⟨k1, by rw [k2, clean_append]; exact ⟨hc, k3⟩⟩) file (later x.name x.sectorSize x.bench x.outcome).2
    exact ⟨tbs, xs, h1, h2, h3, by unfold bench; dsimp only; rw [h4]⟩
  · rw [if_neg hc]
    exact ⟨[], [], .nil, by simp, .nil, by simp [(bench_refused U E file x hc).1]⟩

/-- **C115**: whatever is benchmarked, and whatever the names are, the file parses: to one box for every report made, in the order in
which they were made, each with exactly the items of its report. -/
theorem output_exact (U : Uni) (E : Env) (hE : Sane E) (xs : List Run) :
    ∃ bs, parseString U (benchAll U E [] xs) = .ok bs ∧
      List.Forall₂ (fun r b => SameBox (entry E r) b) (xs.flatMap reported) bs := by
  have key : ∀ (xs : List Run) (file : Bytes), ∃ tbs ys, List.Forall₂ (fun tb x => Juice.serialize tb = .ok x) tbs ys ∧
      (∀ tb ∈ tbs, LegalBox tb) ∧ List.Forall₂ (fun r tb => SameBox (entry E r) tb) (xs.flatMap reported) tbs ∧
      benchAll U E file xs = file ++ ys.flatten := by
    intro xs
    induction xs with
    | nil => intro file; exact ⟨[], [], .nil, by simp, .nil, by simp [benchAll]⟩
    | cons x xs ih =>
      intro file
      obtain ⟨t1, y1, a1, a2, a3, a4⟩ := bench_written U E hE file x
      obtain ⟨t2, y2, b1, b2, b3, b4⟩ := ih (bench U E file x).1
      refine ⟨t1 ++ t2, y1 ++ y2, List.rel_append a1 b1, ?_, ?_, ?_⟩
      · intro t ht
        rcases List.mem_append.1 ht with ht | ht
        · exact a2 t ht
        · exact b2 t ht
      · rw [List.flatMap_cons]; exact List.rel_append a3 b3
      · show benchAll U E (bench U E file x).1 xs = _
        rw [b4, a4, List.flatten_append, List.append_assoc]
  obtain ⟨tbs, ys, h1, h2, h3, h4⟩ := key xs []
  obtain ⟨ys', bs, p1, p2, p3⟩ := parseString_boxes U tbs h2
  have hys : ys = ys' := by
    clear h2 h3 h4 p2 p3 key
    induction h1 generalizing ys' with
    | nil => cases p1; rfl
    | cons hx _ ih =>
      cases p1 with
      | cons q1 q2 =>
        rw [hx] at q1; cases q1
        rw [ih _ q2]
  refine ⟨bs, by rw [h4, List.nil_append, hys]; exact p3, ?_⟩
  clear h1 h2 h4 p1 p3 key hys
  generalize xs.flatMap reported = rs at h3
  induction h3 generalizing bs with
  | nil => cases p2; exact .nil
  | cons hx _ ih =>
    cases p2 with
    | cons q1 q2 => exact .cons ⟨q1.1, fun p => by rw [q1.2, hx.2]⟩ (ih _ q2)

/-- **C115**: what the two boxes of a benchmark that ended by itself say: the differences of times, sizes and counters over the
whole run, and over what was measured last. -/
theorem run_output (U : Uni) (E : Env) (hE : Sane E) (name : Str) (hc : Clean name) (sector : Int) (device : Str) (o : Benchmark.Obs)
    (ms : List Benchmark.Moment) (status : Int) (output : Benchmark.Output) (s t e : Benchmark.Obs)
    (hs : Benchmark.lastStart ms = some s) (ht : Benchmark.lastStop ms = some t) (he : Benchmark.lastEnd ms = some e)
    {a1 a2 a3 a4 a5 a6 b1 b2 b3 b4 b5 b6 c1 c2 c3 c4 c5 c6 d1 d2 d3 d4 d5 d6 : Int}
    (ho : Benchmark.Counters o (Benchmark.diskName (Benchmark.partitionName device)) (Benchmark.partitionName device) a1 a2 a3 a4 a5 a6)
    (he' : Benchmark.Counters e (Benchmark.diskName (Benchmark.partitionName device)) (Benchmark.partitionName device) b1 b2 b3 b4 b5 b6)
    (hs' : Benchmark.Counters s (Benchmark.diskName (Benchmark.partitionName device)) (Benchmark.partitionName device) c1 c2 c3 c4 c5 c6)
    (ht' : Benchmark.Counters t (Benchmark.diskName (Benchmark.partitionName device)) (Benchmark.partitionName device) d1 d2 d3 d4 d5 d6) :
    ∃ failed whole measured,
      (failed = T "False" ↔ status = 0 ∧ Benchmark.CleanStderr output) ∧ (failed = T "True" ∨ failed = T "False") ∧
      parseString U (benchAll U E [] [⟨name, sector, (Bench.new device o).run ms, .success status output⟩]) = .ok [whole, measured] ∧
      SameBox [(T "version", T "0"), (T "error", failed), (T "timeout", T "False"), (T "name", name ++ T "-overall"), (T "host", E.host),
        (T "sector_size", intStr sector), (T "python_version", intStr E.hexversion), (T "twisted_version", E.twisted),
        (T "divmod_version", E.epsilon), (T "elapsed", E.showTime (e.time - o.time)), (T "filesystem_growth", intStr (e.size - o.size)),
        (T "read_count", intStr (b1 - a1)), (T "read_sectors", intStr (b2 - a2)), (T "write_count", intStr (b3 - a3)),
        (T "write_sectors", intStr (b4 - a4)), (T "read_ms", intStr (b5 - a5)), (T "write_ms", intStr (b6 - a6)),
        (T "_command", T "Result")] whole ∧
      SameBox [(T "version", T "0"), (T "error", failed), (T "timeout", T "False"), (T "name", name ++ T "-benchmark"), (T "host", E.host),
        (T "sector_size", intStr sector), (T "python_version", intStr E.hexversion), (T "twisted_version", E.twisted),
        (T "divmod_version", E.epsilon), (T "elapsed", E.showTime (t.time - s.time)), (T "filesystem_growth", intStr (t.size - s.size)),
        (T "read_count", intStr (d1 - c1)), (T "read_sectors", intStr (d2 - c2)), (T "write_count", intStr (d3 - c3)),
        (T "write_sectors", intStr (d4 - c4)), (T "read_ms", intStr (d5 - c5)), (T "write_ms", intStr (d6 - c6)),
        (T "_command", T "Result")] measured := by
  obtain ⟨error, h1, h2⟩ := Benchmark.reports_partial name sector device o ms status output s t e hs ht he ho he' hs' ht'
  obtain ⟨bs, h3, h4⟩ := output_exact U E hE [⟨name, sector, (Bench.new device o).run ms, .success status output⟩]
  have hr : [(⟨name, sector, (Bench.new device o).run ms, .success status output⟩ : Run)].flatMap reported = _ :=
    (show _ = (later name sector ((Bench.new device o).run ms) (.success status output)).1 by simp [reported, hc]).trans
      (congrArg Prod.fst h2)
  rw [hr] at h4
  cases h4 with
  | @cons _ whole _ _ k1 k2 =>
    cases k2 with
    | @cons _ measured _ _ k3 k4 =>
      cases k4
      have hne : T "True" ≠ T "False" := by decide +kernel
      refine ⟨T (if error then "True" else "False"), whole, measured, ?_, ?_, h3, k1, k3⟩
      · rw [← h1]
        cases error
        · simp
        · simp [hne]
      · cases error
        · exact .inr rfl
        · exact .inl rfl

theorem get?_textBox {b : Box} (hb : (b.map Prod.fst).Nodup) {k t : Str} (h : (k, t) ∈ b) :
    Dict.get? (textBox b) k = some (.text t) := by
  apply Dict.get?_of_mem
  · show ((textBox b).map Prod.fst).Nodup
    have : (textBox b).map Prod.fst = b.map Prod.fst := by simp [textBox, Function.comp_def]
    rw [this]; exact hb
  · exact List.mem_map.2 ⟨_, h, rfl⟩

/-- But on Python 3 no such box can be read back as a `Results` command: the texts have no `decode`. -/
theorem read_back_fails (U : Uni) (E : Env) (r : Report) (b : Box) (h : SameBox (entry E r) b) :
    stringsToObjects (textBox b) (resultsArgs U E) = .error .attributeError := by
  obtain ⟨h1, h2⟩ := h
  have hg : ∀ k t, (k, t) ∈ entry E r → Dict.get? (textBox b) k = some (.text t) :=
    fun k t hm => get?_textBox h1 ((h2 _).2 hm)
  have g1 := hg (T "version") (T "0") (by simp [entry, fields])
  have g2 := hg (T "error") (T (if r.error then "True" else "False")) (by simp [entry, fields])
  have g3 := hg (T "timeout") (T (if r.timeout then "True" else "False")) (by simp [entry, fields])
  have g4 := hg (T "name") r.name (by simp [entry, fields])
  have n12 : T "version" ≠ T "error" := by decide +kernel
  have n13 : T "version" ≠ T "timeout" := by decide +kernel
  have n14 : T "version" ≠ T "name" := by decide +kernel
  have n23 : T "error" ≠ T "timeout" := by decide +kernel
  have n24 : T "error" ≠ T "name" := by decide +kernel
  have n34 : T "timeout" ≠ T "name" := by decide +kernel
  have i1 : U.int (T "0") = some 0 := by rw [U.int_ascii _ (by decide +kernel)]; decide +kernel
  have d2 : ∀ x : Bool, (boolean false).dec (.text (T (if x then "True" else "False"))) = .ok (.bool x) := by
    intro x; cases x <;> rfl
  show stringsToObjects (textBox b) ((T "version", integer U false) :: (T "error", boolean false) :: (T "timeout", boolean false) ::
    (T "name", unicode false) :: (resultsArgs U E).drop 4) = _
  simp [stringsToObjects, fromBoxAll, fromBox, retrieve, g1, g2, g3, g4, Dict.get?_erase_other, n12, n13, n14, n23, n24, n34,
    d2, bind, Except.bind, pure, Except.pure, unicode, encodedString, integer, i1]

/-! ## A case -/

/-- Some surroundings. -/
def sampleEnv : Env := ⟨T "box", 50923248, T "20.3.0", T "0.7.4", fun n => intStr n⟩

theorem sample_sane : Sane sampleEnv := ⟨by decide +kernel, by decide +kernel, by decide +kernel, clean_intStr⟩

/-- What is seen at a time. -/
def sampleObs (t : Int) : Benchmark.Obs := ⟨t, [], 10 * t⟩

/-- A benchmark without disk statistics, named so. -/
def sampleRun (name : Str) : Run :=
  ⟨name, 4096, (Bench.new (T "/dev/hda1") (sampleObs 3)).run [.start (sampleObs 4), .stop (sampleObs 6), .ended (sampleObs 7)],
    .success 0 [(2, none)]⟩

/-- Some items of the boxes in a file. -/
def look (file : Bytes) : List (List (Option (List Nat))) :=
  match parseString Uni.ascii file with
  | .ok bs => bs.map fun b => ["name", "elapsed", "filesystem_growth", "read_count"].map fun k => Dict.get? b (T k)
  | .error _ => []

example : look (benchAll Uni.ascii sampleEnv [] [sampleRun [97, 13, 10, 13, 10, 98], sampleRun [0xD800], sampleRun [99]]) =
    [[some ([97, 13, 10, 13, 10, 98] ++ T "-overall"), some (T "4"), some (T "40"), none],
     [some ([97, 13, 10, 13, 10, 98] ++ T "-benchmark"), some (T "2"), some (T "20"), none],
     [some (T "c-overall"), some (T "4"), some (T "40"), none], [some (T "c-benchmark"), some (T "2"), some (T "20"), none]] := by
  decide +kernel

example : (bench Uni.ascii sampleEnv [1, 2] (sampleRun [0xD800])) = ([1, 2], some .unicodeError) := by decide +kernel

end Verif.BenchmarkFile
