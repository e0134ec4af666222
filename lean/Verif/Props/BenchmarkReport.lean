import Verif.Model.BenchmarkReport
/-!
# C85: benchmark reports give the change over the measured period

Full claim: a benchmark's two reports give, for the whole run and for the period between the child's last START and STOP, the
differences of the clock, the directory size and the counters of the partition and of its disk; the error and timeout flags
tell whether the run failed or timed out.
-/
namespace Verif.Benchmark
open Verif.Py

/-- The last of certain moments. -/
def lastStart (ms : List Moment) : Option Obs := (ms.filterMap fun | .start o => some o | _ => none).getLast?
def lastStop (ms : List Moment) : Option Obs := (ms.filterMap fun | .stop o => some o | _ => none).getLast?
def lastEnd (ms : List Moment) : Option Obs := (ms.filterMap fun | .ended o => some o | _ => none).getLast?

theorem run_snoc (b : Bench) (ms : List Moment) (m : Moment) : b.run (ms ++ [m]) = (b.run ms).step m := by
  simp [Bench.run]

/-- Whatever the order of markers, the benchmark's change is between the last START and the last STOP, and the overall change is
between the creation of the process object and its end. -/
theorem measured (device : Str) (o : Obs) (ms : List Moment) :
    let b := (Bench.new device o).run ms
    let snap := snapshot (diskName (partitionName device)) (partitionName device)
    b.overall = ⟨some (snap o), (lastEnd ms).map snap⟩ ∧ b.benchmark = ⟨(lastStart ms).map snap, (lastStop ms).map snap⟩ ∧
      b.disk = diskName (partitionName device) ∧ b.partition = partitionName device := by
  induction ms using List.reverseRecOn with
  | nil => exact ⟨rfl, rfl, rfl, rfl⟩
  | append_singleton ms m ih =>
    obtain ⟨h1, h2, h3, h4⟩ := ih
    simp only [run_snoc]
    cases m with
    | start x => simp_all [Bench.step, lastStart, lastStop, lastEnd, List.filterMap_append]
    | stop x => simp_all [Bench.step, lastStart, lastStop, lastEnd, List.filterMap_append]
    | ended x => simp_all [Bench.step, lastStart, lastStop, lastEnd, List.filterMap_append]

/-- Names as texts. -/
def str (s : String) : Str := s.toList.map Char.toNat

/-- The counter `name` of device `dev` is `n`. -/
def Counter (o : Obs) (dev : Str) (name : String) (n : Int) : Prop :=
  ∃ st, Dict.get? o.stats dev = some st ∧ Dict.get? st (str name) = some n

/-- The counters that reports are about. -/
structure Counters (o : Obs) (disk partition : Str) (rc rs wc ws rm wm : Int) : Prop where
  rc : Counter o partition "readCount" rc
  rs : Counter o partition "readSectorCount" rs
  wc : Counter o partition "writeCount" wc
  ws : Counter o partition "writeSectorCount" ws
  rm : Counter o disk "readMilliseconds" rm
  wm : Counter o disk "writeMilliseconds" wm

theorem counter_some {o : Obs} {dev : Str} {name : String} {n : Int} (h : Counter o dev name n) {st : Stat}
    (hs : Dict.get? o.stats dev = some st) : Dict.get? st (str name) = some n := by
  obtain ⟨st', h1, h2⟩ := h
  rw [hs] at h1; cases h1; exact h2

theorem partitionNames_eq : partitionNames = [str "readCount", str "readSectorCount", str "writeCount", str "writeSectorCount"] := by
  decide

theorem msNames_eq : msNames = [str "readMilliseconds", str "writeMilliseconds"] := by decide

theorem minus_ok {a b : Stat} {name : Structlike.Name} {x y : Int} (ha : Dict.get? a name = some x) (hb : Dict.get? b name = some y) :
    minus a b name = .ok (x - y) := by simp [minus, ha, hb]

/-- One report. -/
theorem report_differences (name : Str) (sector : Int) (disk partition : Str) (o p : Obs) (e t : Bool)
    {rc rs wc ws rm wm rc' rs' wc' ws' rm' wm' : Int} (ho : Counters o disk partition rc rs wc ws rm wm)
    (hp : Counters p disk partition rc' rs' wc' ws' rm' wm') :
    formatResults name sector (snapshot disk partition o) (snapshot disk partition p) e t =
      .ok { name, error := e, timeout := t, sectorSize := sector, elapsed := p.time - o.time, growth := p.size - o.size,
            counts := some [rc' - rc, rs' - rs, wc' - wc, ws' - ws], blocked := some [rm' - rm, wm' - wm] } := by
  obtain ⟨st, hst, _⟩ := ho.rc
  obtain ⟨st', hst', _⟩ := hp.rc
  obtain ⟨sd, hsd, _⟩ := ho.rm
  obtain ⟨sd', hsd', _⟩ := hp.rm
  simp only [formatResults, snapshot, differences, hst, hst', hsd, hsd', partitionNames_eq, msNames_eq, List.mapM_cons, List.mapM_nil,
    minus_ok (counter_some hp.rc hst') (counter_some ho.rc hst), minus_ok (counter_some hp.rs hst') (counter_some ho.rs hst),
    minus_ok (counter_some hp.wc hst') (counter_some ho.wc hst), minus_ok (counter_some hp.ws hst') (counter_some ho.ws hst),
    minus_ok (counter_some hp.rm hsd') (counter_some ho.rm hsd), minus_ok (counter_some hp.wm hsd') (counter_some ho.wm hsd)]
  rfl

/-- Does the output of the child show that all is well: nothing came from file descriptor 2 before it was closed, once? -/
def CleanStderr (output : Output) : Prop := ∃ pre post, output = pre ++ (2, none) :: post ∧ ∀ x ∈ pre ++ post, x.1 ≠ 2

theorem clean_iff (output : Output) : (output.filter fun x => x.1 = 2).map Prod.snd = [none] ↔ CleanStderr output := by
  constructor
  · intro h
    induction output with
    | nil => simp at h
    | cons x r ih =>
      by_cases hx : x.1 = 2
      · rw [List.filter_cons, if_pos (by simpa using hx)] at h
        simp only [List.map_cons, List.cons.injEq, List.map_eq_nil_iff, List.filter_eq_nil_iff, decide_eq_true_eq] at h
        refine ⟨[], r, ?_, by simpa using h.2⟩
        obtain ⟨a, b⟩ := x
        simp only at hx h
        rw [hx, h.1]; rfl
      · rw [List.filter_cons, if_neg (by simpa using hx)] at h
        obtain ⟨pre, post, h1, h2⟩ := ih h
        refine ⟨x :: pre, post, by rw [h1]; rfl, ?_⟩
        intro y hy
        rcases List.mem_cons.1 hy with rfl | hy
        · exact hx
        · exact h2 y hy
  · rintro ⟨pre, post, rfl, h⟩
    have h1 : pre.filter (fun x => decide (x.1 = 2)) = [] := by
      rw [List.filter_eq_nil_iff]; intro x hx; simpa using h x (List.mem_append_left _ hx)
    have h2 : post.filter (fun x => decide (x.1 = 2)) = [] := by
      rw [List.filter_eq_nil_iff]; intro x hx; simpa using h x (List.mem_append_right _ hx)
    rw [List.filter_append, h1, List.filter_cons, if_pos (by simp), h2]; rfl

/-- A run whose process ended by itself is reported twice, with the differences over the whole run and over the last measured
period, and flagged as an error exactly if its status was not 0 or its standard error was not clean.  Missing: see the theorems
below. -/
theorem reports_partial (name : Str) (sector : Int) (device : Str) (o : Obs) (ms : List Moment) (status : Int) (output : Output) (s t e : Obs)
    (hs : lastStart ms = some s) (ht : lastStop ms = some t) (he : lastEnd ms = some e)
    {a1 a2 a3 a4 a5 a6 b1 b2 b3 b4 b5 b6 c1 c2 c3 c4 c5 c6 d1 d2 d3 d4 d5 d6 : Int}
    (ho : Counters o (diskName (partitionName device)) (partitionName device) a1 a2 a3 a4 a5 a6)
    (he' : Counters e (diskName (partitionName device)) (partitionName device) b1 b2 b3 b4 b5 b6)
    (hs' : Counters s (diskName (partitionName device)) (partitionName device) c1 c2 c3 c4 c5 c6)
    (ht' : Counters t (diskName (partitionName device)) (partitionName device) d1 d2 d3 d4 d5 d6) :
    ∃ error, (error = false ↔ status = 0 ∧ CleanStderr output) ∧
      later name sector ((Bench.new device o).run ms) (.success status output) =
        ([{ name := name ++ str "-overall", error, timeout := false, sectorSize := sector, elapsed := e.time - o.time,
            growth := e.size - o.size, counts := some [b1 - a1, b2 - a2, b3 - a3, b4 - a4], blocked := some [b5 - a5, b6 - a6] },
          { name := name ++ str "-benchmark", error, timeout := false, sectorSize := sector, elapsed := t.time - s.time,
            growth := t.size - s.size, counts := some [d1 - c1, d2 - c2, d3 - c3, d4 - c4], blocked := some [d5 - c5, d6 - c6] }],
         none) := by
  obtain ⟨h1, h2, h3, h4⟩ := measured device o ms
  refine ⟨decide (status ≠ 0 ∨ (output.filter fun x => x.1 = 2).map Prod.snd ≠ [none]), ?_, ?_⟩
  · rw [decide_eq_false_iff_not, ← clean_iff]
    simp only [not_or, not_not, ne_eq]
  · have e1 : overallSuffix = str "-overall" := by decide
    have e2 : benchmarkSuffix = str "-benchmark" := by decide
    simp only [later, h1, h2, hs, ht, he, Option.map_some, reportChange, e1, e2,
      report_differences _ sector _ _ o e _ _ ho he', report_differences _ sector _ _ s t _ _ hs' ht']

/-- A disk with one partition. -/
def sampleStats (n : Int) : Dict Str Stat :=
  [(str "sda", [(str "readMilliseconds", 10 * n), (str "writeMilliseconds", 20 * n)]),
   (str "sda1", [(str "readCount", n), (str "readSectorCount", 2 * n), (str "writeCount", 3 * n), (str "writeSectorCount", 4 * n)])]

def obs (n : Int) : Obs := ⟨100 * n, sampleStats n, 1000 * n⟩

example (n : Int) : Counters (obs n) (diskName (partitionName (str "/dev/sda1"))) (partitionName (str "/dev/sda1")) n (2 * n) (3 * n)
    (4 * n) (10 * n) (20 * n) := by
  have h1 : partitionName (str "/dev/sda1") = str "sda1" := by decide
  have h2 : diskName (str "sda1") = str "sda" := by decide
  rw [h1, h2]
  constructor <;> exact ⟨_, rfl, rfl⟩

example : later (str "x") 512 ((Bench.new (str "/dev/sda1") (obs 1)).run [.start (obs 2), .stop (obs 5), .ended (obs 9)])
      (.success 0 [(1, some [104]), (1, none), (2, none)]) =
    ([⟨str "x-overall", false, false, 512, 800, 8000, some [8, 16, 24, 32], some [80, 160]⟩,
      ⟨str "x-benchmark", false, false, 512, 300, 3000, some [3, 6, 9, 12], some [30, 60]⟩], none) := by decide

example : CleanStderr [(1, some [104]), (1, none), (2, none)] := ⟨[(1, some [104]), (1, none)], [], rfl, by simp⟩

/-- A device in `/dev` whose name is letters and a number has its partition and its disk found. -/
theorem disk_found (dir disk digits : Str) (hd : (47 : Nat) ∉ disk ++ digits) (hn : ∀ c ∈ digits, 48 ≤ c ∧ c ≤ 57)
    (hl : ∀ c, disk.getLast? = some c → ¬ (48 ≤ c ∧ c ≤ 57)) :
    partitionName (dir ++ [47] ++ (disk ++ digits)) = disk ++ digits ∧ diskName (disk ++ digits) = disk := by
  have split_last : ∀ (s cur : Str), (47 : Nat) ∉ disk ++ digits →
      (splitGo [47] cur 0 (s ++ [47] ++ (disk ++ digits))).getLast? = some (disk ++ digits) := by
    intro s
    induction s with
    | nil =>
      intro cur h
      have : splitGo [47] ([] : Str) 0 (disk ++ digits) = [disk ++ digits] := by
        rw [splitGo_last [47] [] (disk ++ digits)]
        · rfl
        · intro hi; exact h (hi.subset (by simp))
      simp only [List.nil_append, List.cons_append]
      rw [splitGo, if_pos (by simp [List.isPrefixOf])]
      simp only [List.length_singleton, Nat.sub_self, this]
      simp
    | cons c s ih =>
      intro cur h
      simp only [List.cons_append]
      rw [splitGo]
      split
      · rename_i hp
        simp only [List.length_singleton, Nat.sub_self]
        rw [List.getLast?_cons_of_ne_nil]
        · exact ih [] h
        · intro he
          have := ih [] h
          rw [he] at this; cases this
      · exact ih _ h
  constructor
  · unfold partitionName splitSep
    rw [split_last dir [] hd]; rfl
  · unfold diskName
    rw [List.reverse_append]
    have h1 : ∀ (l r : Str), (∀ c ∈ l, 48 ≤ c ∧ c ≤ 57) → (l ++ r).dropWhile (fun c => decide (48 ≤ c ∧ c ≤ 57)) =
        r.dropWhile (fun c => decide (48 ≤ c ∧ c ≤ 57)) := by
      intro l r hl
      induction l with
      | nil => rfl
      | cons c l ih =>
        rw [List.cons_append, List.dropWhile_cons_of_pos (by simpa using hl c (by simp))]
        exact ih fun x hx => hl x (by simp [hx])
    rw [h1 _ _ (by simpa using hn)]
    have h2 : disk.reverse.dropWhile (fun c => decide (48 ≤ c ∧ c ≤ 57)) = disk.reverse := by
      cases hr : disk.reverse with
      | nil => rfl
      | cons c r =>
        rw [List.dropWhile_cons_of_neg]
        have : disk.getLast? = some c := by rw [List.getLast?_eq_head?_reverse, hr]; rfl
        simpa using hl c this
    rw [h2, List.reverse_reverse]

example : partitionName (str "/dev/sda1") = str "sda1" ∧ diskName (str "sda1") = str "sda" := by decide

/-- The disk of `/dev/nvme0n1p1` is `nvme0n1`; the script looks for `nvme0n1p`, and reports nothing about the disk. -/
theorem disk_name_fails :
    diskName (partitionName (str "/dev/nvme0n1p1")) = str "nvme0n1p" := by decide

/-- A run that timed out is not reported at all, so no report ever has the timeout flag. -/
theorem timeout_fails (name : Str) (sector : Int) (b : Bench) :
    later name sector b .timeoutError = ([], none) ∧ ∀ outcome, ∀ r ∈ (later name sector b outcome).1, r.timeout = false := by
  refine ⟨rfl, ?_⟩
  have fm : ∀ {n s x y e r}, formatResults n s x y e false = .ok r → r.timeout = false := by
    intro n s x y e r h
    simp only [formatResults, bind, Except.bind] at h
    split at h
    · cases h
    · split at h
      · cases h
      · cases h; rfl
  have rc : ∀ {n s c e r}, reportChange n s c e = .ok r → r.timeout = false := by
    intro n s c e r h
    unfold reportChange at h
    split at h
    · exact fm h
    · cases h
  intro outcome r hr
  cases outcome with
  | success st out =>
    simp only [later] at hr
    split at hr
    · cases hr
    · rename_i r1 h1
      split at hr
      · simp only [List.mem_singleton] at hr; subst hr; exact rc h1
      · rename_i r2 h2
        simp only [List.mem_cons, List.not_mem_nil, or_false] at hr
        rcases hr with rfl | rfl
        · exact rc h1
        · exact rc h2
  | timeoutError => cases hr
  | processDied a b c d => cases hr
  | failure n => cases hr

/-- A script that never sends START and STOP is reported half, and then the report raises. -/
theorem unmeasured_fails :
    (later (str "x") 512 ((Bench.new (str "/dev/sda1") (obs 1)).run [.ended (obs 9)]) (.success 0 [(2, none)])).1.length = 1 ∧
      (later (str "x") 512 ((Bench.new (str "/dev/sda1") (obs 1)).run [.ended (obs 9)]) (.success 0 [(2, none)])).2 =
        some .attributeError := by decide

end Verif.Benchmark
