import Verif.Props.GenRunInv
import Mathlib.Tactic.ByContra
/-!
# Lemmas for C144: results
-/
namespace Verif.GenRun
open Verif.Py
open Verif.DeferredGenerator (Val Res)

section
variable (l : List Ev)

theorem waitsOn_append (d) (m : List Ev) : waitsOn d (l ++ m) = waitsOn d l ++ waitsOn d m := List.filterMap_append
theorem allWaits_append (m : List Ev) : allWaits (l ++ m) = allWaits l ++ allWaits m := List.filterMap_append
theorem firedBy_append (d) (m : List Ev) : firedBy d (l ++ m) = firedBy d l ++ firedBy d m := List.filterMap_append

theorem pending_append (i) (e : Ev) : pending i (l ++ [e]) = match e with
    | .waits w d => if w.1 = i then some (w, d) else pending i l
    | .next j _ => if j = i then none else pending i l
    | _ => pending i l := by
  unfold pending
  rw [List.foldl_append]
  rfl

theorem lastYield_append (i) (e : Ev) : lastYield i (l ++ [e]) = match e with
    | .waits w _ => if w.1 = i then none else lastYield i l
    | .yielded j v => if j = i then v else lastYield i l
    | _ => lastYield i l := by
  unfold lastYield
  rw [List.foldl_append]
  rfl

theorem mem_waitsOn (d : D) (w : W) : w ∈ waitsOn d l ↔ .waits w d ∈ l := by
  unfold waitsOn
  rw [List.mem_filterMap]
  constructor
  · rintro ⟨e, he, h⟩
    split at h
    · split at h
      · rename_i hd; cases h; rw [← hd]; exact he
      · cases h
    · cases h
  · intro h
    exact ⟨_, h, by simp⟩

theorem mem_allWaits (w : W) : w ∈ allWaits l ↔ ∃ d, .waits w d ∈ l := by
  unfold allWaits
  rw [List.mem_filterMap]
  constructor
  · rintro ⟨e, he, h⟩
    split at h
    · cases h; exact ⟨_, he⟩
    · cases h
  · rintro ⟨d, h⟩
    exact ⟨_, h, by simp⟩

theorem mem_firedBy (d : D) (r : Res) : r ∈ firedBy d l ↔ .fired d r ∈ l := by
  unfold firedBy
  rw [List.mem_filterMap]
  constructor
  · rintro ⟨e, he, h⟩
    split at h
    · split at h
      · rename_i hd; cases h; rw [← hd]; exact he
      · cases h
    · cases h
  · intro h
    exact ⟨_, h, by simp⟩
end

/-- Of those waiting for `d`, the ones in `pre` have been given their results. -/
def Served (s : St) (d : D) (pre : List W) : Prop :=
  waitsOn d s.log = pre ++ (s.queue.filter (fun e => e.d = d)).map (·.w) ∧
  ((s.result d = none ∧ firedBy d s.log = [] ∧ pre = []) ∨
   ∃ r, firedBy d s.log = [r] ∧ s.result d = some (if pre = [] then r else .value none) ∧
    ∀ k w, pre[k]? = some w → s.got w = some (if k = 0 then r else .value none))

/-- The result of a wait is as the order of the waits says. -/
def Right (l : List Ev) (w : W) (x : Option Res) : Prop :=
  ∃ d r k, (waitsOn d l)[k]? = some w ∧ .fired d r ∈ l ∧ x = some (if k = 0 then r else .value none)

structure Rs (s : St) : Prop where
  gotQ : ∀ e ∈ s.queue, s.got e.w = none
  gotNew : ∀ w, s.got w ≠ none → w.2 < s.count w.1
  seq : ∀ d, ∃ pre, Served s d pre
  nextOk : ∀ i w x, .next i (some (w, x)) ∈ s.log → w.1 = i ∧ Right s.log w x
  pend : ∀ i, pending i s.log = match s.phase i with | .suspended x => x | _ => none
  inLog : ∀ i w d, s.phase i = .suspended (some (w, d)) → .waits w d ∈ s.log
  lastL : ∀ i v, .loop i v ∈ s.stack → v = lastYield i s.log
  lastB : ∀ i v, .body i v ∈ s.stack → v = lastYield i s.log
  lastW : ∀ i x, s.phase i = .suspended (some x) → lastYield i s.log = none
  fresh : ∀ i, s.started i = false → lastYield i s.log = none
  below : ∀ w d, .waits w d ∈ s.log → w.2 < s.count w.1
  distinct : (allWaits s.log).Nodup

theorem Right.mono {l : List Ev} {w x} (h : Right l w x) (m : List Ev) : Right (l ++ m) w x := by
  obtain ⟨d, r, k, h1, h2, h3⟩ := h
  refine ⟨d, r, k, ?_, List.mem_append_left _ h2, h3⟩
  rw [waitsOn_append, List.getElem?_append_left]
  · exact h1
  · exact (List.getElem?_eq_some_iff.mp h1).1

theorem nextOk_mono {l m : List Ev} (hn : ∀ i w x, .next i (some (w, x)) ∈ l → w.1 = i ∧ Right l w x)
    (hm : ∀ i w x, .next i (some (w, x)) ∈ m → w.1 = i ∧ Right (l ++ m) w x) (i w x) (h : .next i (some (w, x)) ∈ l ++ m) :
    w.1 = i ∧ Right (l ++ m) w x := by
  rcases List.mem_append.mp h with h | h
  · exact ⟨(hn i w x h).1, (hn i w x h).2.mono m⟩
  · exact hm i w x h

theorem Rs.init : Rs {} := by
  constructor
  case seq => exact fun d => ⟨[], by simp [Served, waitsOn, firedBy]⟩
  all_goals simp [pending, lastYield, allWaits]

/-- The parts of the state that matter for `Served` are unchanged, and so are the waits and firings in the log. -/
theorem Served.same {s t : St} {d pre} (h : Served s d pre) (h1 : waitsOn d t.log = waitsOn d s.log)
    (h2 : firedBy d t.log = firedBy d s.log) (h3 : t.queue = s.queue) (h4 : t.result d = s.result d) (h5 : t.got = s.got) :
    Served t d pre := by
  unfold Served at *
  rw [h1, h2, h3, h4, h5]
  exact h

theorem Rs.next {s : St} {i : Nat} {last : Val} {rest : List Frame} {x} (c : Ctl s) (h : Rs s) (hs : s.stack = .loop i last :: rest)
    (hp : s.phase i = .suspended x) :
    Rs { s with stack := .body i last :: rest, phase := upd s.phase i .running,
                log := s.log ++ [.next i (x.map fun p => (p.1, s.got p.1))] } := by
  have hi : i ∉ gens rest := by have := c.nodupS; rw [hs] at this; simp at this; exact this.1
  obtain ⟨h1, h2, h3, h4, h5, h6, h7, h8, h9, h10, h11, h12⟩ := h
  constructor
  case seq =>
    intro d
    obtain ⟨pre, hpre⟩ := h3 d
    exact ⟨pre, hpre.same (by simp [waitsOn]) (by simp [firedBy]) rfl rfl rfl⟩
  case nextOk =>
    refine nextOk_mono h4 ?_
    intro j w y hm
    simp only [List.mem_singleton, Ev.next.injEq] at hm
    obtain ⟨rfl, hm⟩ := hm
    cases x with
    | none => cases hm
    | some p =>
      obtain ⟨w', d⟩ := p
      simp only [Option.map_some, Option.some.injEq, Prod.mk.injEq] at hm
      obtain ⟨rfl, rfl⟩ := hm
      obtain ⟨hwj, -, -⟩ := c.susp j w d hp
      refine ⟨hwj, Right.mono ?_ _⟩
      obtain ⟨pre, hw, hr⟩ := h3 d
      have hmem : w ∈ waitsOn d s.log := (mem_waitsOn _ _ _).mpr (h6 j w d hp)
      have hnq : w ∉ (s.queue.filter (fun e => e.d = d)).map (·.w) := by
        intro hq
        obtain ⟨e, he, rfl⟩ := List.mem_map.mp hq
        have he' := (List.mem_filter.mp he).1
        cases hwt : s.waiting e.w with
        | true =>
          have := c.qTrue e he' hwt
          rw [hs] at this
          simp only [List.mem_cons, reduceCtorEq, false_or] at this
          exact hi (hwj ▸ gens_of_adding this)
        | false =>
          exact c.qFalse e he' hwt (by rw [hs, hwj]; simp)
      have hpre : w ∈ pre := by
        rw [hw] at hmem
        rcases List.mem_append.mp hmem with hm | hm
        · exact hm
        · exact absurd hm hnq
      obtain ⟨k, hk⟩ := List.mem_iff_getElem?.mp hpre
      rcases hr with ⟨-, -, rfl⟩ | ⟨r, hf, -, hg⟩
      · simp at hpre
      · refine ⟨d, r, k, ?_, (mem_firedBy _ _ _).mp (by rw [hf]; simp), hg k w hk⟩
        rw [hw, List.getElem?_append_left (List.getElem?_eq_some_iff.mp hk).1]
        exact hk
  all_goals rw [hs] at *
  all_goals simp only [upd, pending_append, lastYield_append, allWaits_append, List.mem_append, List.mem_cons, reduceCtorEq,
    List.not_mem_nil, false_or, or_false] at *
  case distinct => simpa [allWaits] using h12
  case lastB =>
    rintro j v (hj | hj)
    · cases hj; exact h7 i last (Or.inl rfl)
    · exact h8 j v hj
  all_goals grind

theorem Rs.addTrue {s : St} {w : W} {rest : List Frame} (h : Rs s) (hs : s.stack = .adding w :: rest) :
    Rs { s with waiting := upd s.waiting w false, stack := rest } := by
  obtain ⟨h1, h2, h3, h4, h5, h6, h7, h8, h9, h10, h11, h12⟩ := h
  rw [hs] at *
  constructor <;> try assumption
  · exact fun i v hv => h7 i v (List.mem_cons_of_mem _ hv)
  · exact fun i v hv => h8 i v (List.mem_cons_of_mem _ hv)

theorem Rs.popFiring {s : St} {d : D} {rest : List Frame} (h : Rs s) (hs : s.stack = .firing d :: rest) :
    Rs { s with stack := rest } := by
  obtain ⟨h1, h2, h3, h4, h5, h6, h7, h8, h9, h10, h11, h12⟩ := h
  rw [hs] at *
  constructor <;> try assumption
  · exact fun i v hv => h7 i v (List.mem_cons_of_mem _ hv)
  · exact fun i v hv => h8 i v (List.mem_cons_of_mem _ hv)

theorem Rs.addFalse {s : St} {w : W} {rest : List Frame} (c : Ctl s) (h : Rs s) (hs : s.stack = .adding w :: rest) :
    Rs { s with stack := .loop w.1 none :: rest } := by
  obtain ⟨d, hd⟩ := c.addPhase w (by rw [hs]; simp)
  obtain ⟨h1, h2, h3, h4, h5, h6, h7, h8, h9, h10, h11, h12⟩ := h
  have hl := h9 _ _ hd
  rw [hs] at *
  constructor <;> try assumption
  all_goals simp only [List.mem_cons, reduceCtorEq, false_or, Frame.loop.injEq] at *
  all_goals grind

theorem filter_other {d d' : D} {a b : List Entry} {e : Entry} (he : e.d = d) (hd : d' ≠ d) :
    (a ++ e :: b).filter (fun x => x.d = d') = (a ++ b).filter (fun x => x.d = d') := by
  rw [List.filter_append, List.filter_cons_of_neg (by simp [he, Ne.symm hd]), ← List.filter_append]

theorem filter_own {d : D} {a b : List Entry} {e : Entry} (he : e.d = d) (ha : ∀ x ∈ a, x.d ≠ d) :
    (a ++ e :: b).filter (fun x => x.d = d) = e :: (a ++ b).filter (fun x => x.d = d) := by
  have : a.filter (fun x => x.d = d) = [] := List.filter_eq_nil_iff.mpr (by simpa using ha)
  rw [List.filter_append, List.filter_append, List.filter_cons_of_pos (by simp [he]), this]
  rfl

/-- The first in the queue of `d` is given its result. -/
theorem Served.take {s t : St} {d : D} {e : Entry} {q : List Entry} {r : Res} (h : Rs s)
    (ht : takeFirst d s.queue = some (e, q)) (hr : s.result d = some r)
    (h1 : t.queue = q) (h2 : t.got = upd s.got e.w (some r)) (h3 : t.result = upd s.result d (some (.value none)))
    (h4 : t.log = s.log) (d' : D) : ∃ pre, Served t d' pre := by
  obtain ⟨pre, hw, hf⟩ := h.seq d'
  obtain ⟨a, b, hq, rfl, hed, ha⟩ := takeFirst_eq ht
  have hgot : s.got e.w = none := h.gotQ e (by rw [hq]; simp)
  have hpre : ∀ (r0 : Res), (∀ k w, pre[k]? = some w → s.got w = some (if k = 0 then r0 else .value none)) →
      ∀ k w, pre[k]? = some w → t.got w = some (if k = 0 then r0 else .value none) := by
    intro r0 hg k w hk
    rw [h2, ← hg k w hk]
    unfold upd
    rw [if_neg]
    rintro rfl
    rw [hg k _ hk] at hgot
    cases hgot
  by_cases hd : d' = d
  · subst hd
    rw [hq, filter_own hed ha] at hw
    refine ⟨pre ++ [e.w], ?_, ?_⟩
    · rw [h4, h1, hw]; simp
    · rcases hf with ⟨hf, -⟩ | ⟨r0, hf1, hf2, hf3⟩
      · rw [hr] at hf; cases hf
      · refine Or.inr ⟨r0, by rw [h4]; exact hf1, by rw [h3]; simp [upd], ?_⟩
        intro k w hk
        by_cases hkl : k < pre.length
        · rw [List.getElem?_append_left hkl] at hk
          exact hpre r0 hf3 k w hk
        · rw [List.getElem?_append_right (by omega)] at hk
          have hk0 : k - pre.length = 0 := by
            have := (List.getElem?_eq_some_iff.mp hk).1
            simp at this
            omega
          rw [hk0] at hk
          simp at hk
          rw [h2, ← hk]
          unfold upd
          rw [if_pos rfl, ← hr, hf2]
          cases pre with
          | nil => simp at hk0; simp [hk0]
          | cons x xs => rw [if_neg (by simp), if_neg (by simp at hk0 hkl; omega)]
  · rw [hq, filter_other hed hd] at hw
    refine ⟨pre, by rw [h4, h1]; exact hw, ?_⟩
    rcases hf with hf | ⟨r0, hf1, hf2, hf3⟩
    · left; rw [h4, h3]; simpa [upd, hd] using hf
    · exact Or.inr ⟨r0, by rw [h4]; exact hf1, by rw [h3]; simp only [upd, if_neg hd]; exact hf2, hpre r0 hf3⟩

theorem Rs.take {s : St} {d : D} {e : Entry} {q : List Entry} {r : Res} {wt : W → Bool} {st : List Frame} (c : Ctl s) (h : Rs s)
    (ht : takeFirst d s.queue = some (e, q)) (hr : s.result d = some r) (hst : st = s.stack ∨ st = .loop e.w.1 none :: s.stack) :
    Rs { s with queue := q, got := upd s.got e.w (some r), result := upd s.result d (some (.value none)), waiting := wt, stack := st } := by
  have hseq := fun d' => Served.take (t := { s with queue := q, got := upd s.got e.w (some r), result := upd s.result d (some (.value none)), waiting := wt, stack := st }) h ht hr rfl rfl rfl rfl d'
  obtain ⟨a, b, hq, rfl, hed, ha⟩ := takeFirst_eq ht
  have hn := c.nodupQ
  rw [hq] at hn
  obtain ⟨-, hne⟩ := nodup_take hn
  have hmem : ∀ x, x ∈ a ++ b → x ∈ s.queue := by intro x hx; rw [hq]; simp at hx ⊢; grind
  have he : e ∈ s.queue := by rw [hq]; simp
  have hph := c.qPhase e he
  obtain ⟨-, hlt, -⟩ := c.susp _ _ _ hph
  obtain ⟨h1, h2, h3, h4, h5, h6, h7, h8, h9, h10, h11, h12⟩ := h
  have hl := h9 _ _ hph
  constructor <;> try assumption
  · intro x hx
    have hxe : x.w ≠ e.w := fun hh => hne x hx (by rw [hh])
    simp only [upd, if_neg hxe]
    exact h1 x (hmem x hx)
  · intro w hw
    simp only [upd] at hw
    split at hw
    · rename_i hwe; rw [hwe]; exact hlt
    · exact h2 w hw
  · intro i v hv
    rcases hst with rfl | rfl
    · exact h7 i v hv
    · rcases List.mem_cons.mp hv with hv | hv
      · cases hv; exact hl.symm
      · exact h7 i v hv
  · intro i v hv
    rcases hst with rfl | rfl
    · exact h8 i v hv
    · rcases List.mem_cons.mp hv with hv | hv
      · cases hv
      · exact h8 i v hv

/-- A Deferred is fired for the first time. -/
theorem Served.fire {s t : St} {d : D} {r : Res} (h : Rs s) (hr : s.result d = none) (h1 : t.queue = s.queue) (h2 : t.got = s.got)
    (h3 : t.result = upd s.result d (some r)) (hw : ∀ d', waitsOn d' t.log = waitsOn d' s.log)
    (hf : ∀ d', firedBy d' t.log = firedBy d' s.log ++ if d' = d then [r] else []) (d' : D) : ∃ pre, Served t d' pre := by
  obtain ⟨pre, hw', hf'⟩ := h.seq d'
  refine ⟨pre, by rw [hw, h1]; exact hw', ?_⟩
  by_cases hd : d' = d
  · subst hd
    rcases hf' with ⟨-, hf1, rfl⟩ | ⟨r0, -, hf2, -⟩
    · exact Or.inr ⟨r, by rw [hf, hf1]; simp, by rw [h3]; simp [upd], by simp⟩
    · rw [hr] at hf2; cases hf2
  · rw [hf, if_neg hd, List.append_nil, h3, h2]
    simp only [upd, if_neg hd]
    exact hf'

theorem Rs.ended {s : St} {i : Nat} {last : Val} {rest : List Frame} {r : Res} {e : Ev} (c : Ctl s) (h : Rs s)
    (hs : s.stack = .body i last :: rest) (he : e = .stopped i ∨ ∃ x, e = .raised i x) :
    Rs { s with result := upd s.result (.own i) (some r), stack := .firing (.own i) :: rest, phase := upd s.phase i .finished,
                log := s.log ++ [e] ++ [.fired (.own i) r] } := by
  have hr : s.result (.own i) = none := by
    by_contra hc
    have := (c.own i).mp hc
    rw [c.bodyPhase i last (by rw [hs]; simp)] at this
    cases this
  have hph := c.bodyPhase i last (by rw [hs]; simp)
  have hseq := Served.fire (t := { s with result := upd s.result (.own i) (some r), stack := .firing (.own i) :: rest, phase := upd s.phase i .finished, log := s.log ++ [e] ++ [.fired (.own i) r] }) h hr rfl rfl rfl
    (by intro d'; rcases he with rfl | ⟨x, rfl⟩ <;> simp [waitsOn])
    (by intro d'; by_cases hd : d' = .own i
        · subst hd; rcases he with rfl | ⟨x, rfl⟩ <;> simp [firedBy]
        · rcases he with rfl | ⟨x, rfl⟩ <;> simp [firedBy, hd, Ne.symm hd])
  obtain ⟨h1, h2, h3, h4, h5, h6, h7, h8, h9, h10, h11, h12⟩ := h
  have hpend : ∀ j, pending j (s.log ++ [e] ++ [.fired (.own i) r]) = pending j s.log := by
    intro j; rcases he with rfl | ⟨x, rfl⟩ <;> simp [pending]
  have hlast : ∀ j, lastYield j (s.log ++ [e] ++ [.fired (.own i) r]) = lastYield j s.log := by
    intro j; rcases he with rfl | ⟨x, rfl⟩ <;> simp [lastYield]
  have hmem : ∀ w d, .waits w d ∈ s.log ++ [e] ++ [.fired (.own i) r] ↔ .waits w d ∈ s.log := by
    intro w d; rcases he with rfl | ⟨x, rfl⟩ <;> simp
  constructor <;> try assumption
  case nextOk =>
    rw [List.append_assoc]
    refine nextOk_mono h4 ?_
    intro j w y hm
    rcases he with rfl | ⟨x, rfl⟩ <;> simp at hm
  case distinct => rcases he with rfl | ⟨x, rfl⟩ <;> simpa [allWaits] using h12
  all_goals simp only [hpend, hlast, hmem]
  all_goals rw [hs] at *
  all_goals simp only [upd, List.mem_cons, reduceCtorEq, false_or] at *
  all_goals grind

theorem Rs.yield {s : St} {i : Nat} {last v : Val} {rest : List Frame} (c : Ctl s) (h : Rs s) (hs : s.stack = .body i last :: rest) :
    Rs { s with stack := .loop i v :: rest, phase := upd s.phase i (.suspended none), log := s.log ++ [.yielded i v] } := by
  have hi : i ∉ gens rest := by have := c.nodupS; rw [hs] at this; simp at this; exact this.1
  have hph := c.bodyPhase i last (by rw [hs]; simp)
  have hst := c.fresh i
  obtain ⟨h1, h2, h3, h4, h5, h6, h7, h8, h9, h10, h11, h12⟩ := h
  constructor <;> try assumption
  case seq =>
    intro d
    obtain ⟨pre, hpre⟩ := h3 d
    exact ⟨pre, hpre.same (by simp [waitsOn]) (by simp [firedBy]) rfl rfl rfl⟩
  case nextOk => exact nextOk_mono h4 (by simp)
  all_goals rw [hs] at *
  all_goals simp only [upd, pending_append, lastYield_append, allWaits_append, List.mem_append, List.mem_cons, reduceCtorEq,
    List.not_mem_nil, false_or, or_false] at *
  case distinct => simpa [allWaits] using h12
  all_goals grind [→ gens_of_loop, → gens_of_body, → gens_of_adding]

theorem Rs.abandon {s : St} {i : Nat} {last : Val} {rest : List Frame} (c : Ctl s) (h : Rs s) (hs : s.stack = .body i last :: rest) :
    Rs { s with stack := rest, phase := upd s.phase i (.suspended none), log := s.log ++ [.abandoned i] } := by
  have hi : i ∉ gens rest := by have := c.nodupS; rw [hs] at this; simp at this; exact this.1
  have hph := c.bodyPhase i last (by rw [hs]; simp)
  have hst := c.fresh i
  obtain ⟨h1, h2, h3, h4, h5, h6, h7, h8, h9, h10, h11, h12⟩ := h
  constructor <;> try assumption
  case seq =>
    intro d
    obtain ⟨pre, hpre⟩ := h3 d
    exact ⟨pre, hpre.same (by simp [waitsOn]) (by simp [firedBy]) rfl rfl rfl⟩
  case nextOk => exact nextOk_mono h4 (by simp)
  all_goals rw [hs] at *
  all_goals simp only [upd, pending_append, lastYield_append, allWaits_append, List.mem_append, List.mem_cons, reduceCtorEq,
    List.not_mem_nil, false_or, or_false] at *
  case distinct => simpa [allWaits] using h12
  all_goals grind [→ gens_of_loop, → gens_of_body, → gens_of_adding]

theorem Rs.fire {s : St} {n : Nat} {r : Res} (h : Rs s) (hr : s.result (.ext n) = none) : Rs (fireD s (.ext n) r) := by
  have hseq := Served.fire (t := fireD s (.ext n) r) h hr rfl rfl rfl (by simp [fireD, waitsOn])
    (by intro d'; by_cases hd : d' = .ext n
        · subst hd; simp [firedBy, fireD]
        · simp [firedBy, fireD, hd, Ne.symm hd])
  obtain ⟨h1, h2, h3, h4, h5, h6, h7, h8, h9, h10, h11, h12⟩ := h
  unfold fireD at *
  constructor <;> try assumption
  case nextOk => exact nextOk_mono h4 (by simp)
  all_goals simp only [upd, pending_append, lastYield_append, allWaits_append, List.mem_append, List.mem_cons, reduceCtorEq,
    List.not_mem_nil, false_or, or_false] at *
  case distinct => simpa [allWaits] using h12
  all_goals assumption

/-- An event that is only a remark. -/
theorem Rs.remark {s : St} {st : List Frame} {sd : Nat → Bool} {e : Ev} (h : Rs s) (he : (∃ d, e = .again d) ∨ ∃ j, e = .started j)
    (hst : st = s.stack ∨ ∃ j, s.started j = false ∧ st = .loop j none :: s.stack)
    (hsd : ∀ i, sd i = false → s.started i = false) :
    Rs { s with started := sd, stack := st, log := s.log ++ [e] } := by
  obtain ⟨h1, h2, h3, h4, h5, h6, h7, h8, h9, h10, h11, h12⟩ := h
  constructor <;> try assumption
  case seq =>
    intro d
    obtain ⟨pre, hpre⟩ := h3 d
    rcases he with ⟨d, rfl⟩ | ⟨j, rfl⟩ <;> exact ⟨pre, hpre.same (by simp [waitsOn]) (by simp [firedBy]) rfl rfl rfl⟩
  case nextOk =>
    rcases he with ⟨d, rfl⟩ | ⟨j, rfl⟩ <;> exact nextOk_mono h4 (by simp)
  case distinct => rcases he with ⟨d, rfl⟩ | ⟨j, rfl⟩ <;> simpa [allWaits] using h12
  all_goals rcases he with ⟨d, rfl⟩ | ⟨j, rfl⟩
  all_goals simp only [upd, pending_append, lastYield_append, List.mem_append, List.mem_cons, reduceCtorEq,
    List.not_mem_nil, false_or, or_false] at *
  all_goals grind

theorem Rs.wait {s : St} {i : Nat} {last : Val} {rest st : List Frame} {wt} {d : D} (c : Ctl s) (h : Rs s)
    (hs : s.stack = .body i last :: rest)
    (hst : st = .firing d :: .adding (i, s.count i) :: rest ∨ st = .adding (i, s.count i) :: rest) :
    Rs { s with
      stack := st
      queue := s.queue ++ [⟨d, (i, s.count i)⟩]
      waiting := wt
      phase := upd s.phase i (.suspended (some ((i, s.count i), d)))
      count := upd s.count i (s.count i + 1)
      log := s.log ++ [.waits (i, s.count i) d] } := by
  have hi : i ∉ gens rest := by have := c.nodupS; rw [hs] at this; simp at this; exact this.1
  have hph := c.bodyPhase i last (by rw [hs]; simp)
  have hfr := c.fresh i
  obtain ⟨h1, h2, h3, h4, h5, h6, h7, h8, h9, h10, h11, h12⟩ := h
  have hg : s.got (i, s.count i) = none := by
    by_contra hc
    have := h2 _ hc
    simp at this
  constructor <;> try assumption
  case seq =>
    intro d'
    obtain ⟨pre, hw, hf⟩ := h3 d'
    refine ⟨pre, ?_, ?_⟩
    · rw [waitsOn_append, hw]
      by_cases hd : d = d'
      · simp [waitsOn, hd]
      · simp [waitsOn, hd]
    · simpa [firedBy_append, firedBy] using hf
  case nextOk => exact nextOk_mono h4 (by simp)
  case distinct =>
    rw [allWaits_append, List.nodup_append]
    refine ⟨h12, by simp [allWaits], ?_⟩
    intro a ha b hb
    simp only [allWaits, List.filterMap_cons, List.filterMap_nil, List.mem_singleton] at hb
    rw [hb]
    rintro rfl
    obtain ⟨d', hd'⟩ := (mem_allWaits _ _).mp ha
    have := h11 _ _ hd'
    simp at this
  all_goals rw [hs] at *
  all_goals rcases hst with rfl | rfl
  all_goals simp only [upd, pending_append, lastYield_append, List.mem_append, List.mem_cons, reduceCtorEq,
    List.not_mem_nil, false_or, or_false] at *
  all_goals grind [→ gens_of_loop, → gens_of_body, → gens_of_adding]

end Verif.GenRun
