import Verif.Model.Pending
/-!
# C59: `PendingEvent`
-/
namespace Verif.Pending

/-- Specification: the number and the result of the first event after the request of `d`. -/
def scan (d : Nat) : Bool → Nat → List Ev → Option (Nat × Result)
  | _, _, [] => none
  | seen, k, .requested d' :: t => scan d (seen || d' == d) k t
  | seen, k, .event r :: t => if seen then some (k, r) else scan d seen (k + 1) t
  | seen, k, .fired _ _ :: t => scan d seen k t

def awaited (t : List Ev) (d : Nat) : Option (Nat × Result) := scan d false 0 t

/-- The Deferreds fired, in order. -/
def firedOf (t : List Ev) : List (Nat × Result) := t.filterMap fun e => match e with | .fired d r => some (d, r) | _ => none

def events (t : List Ev) : Nat := t.countP fun e => match e with | .event _ => true | _ => false

/-! ## The specification under appending -/

theorem scan_append_fired (d d' : Nat) (r : Result) (t : List Ev) (seen : Bool) (k : Nat) :
    scan d seen k (t ++ [.fired d' r]) = scan d seen k t := by
  induction t generalizing seen k with
  | nil => rfl
  | cons e t ih => cases e <;> simp only [List.cons_append, scan, ih]

theorem scan_append_requested (d d' : Nat) (t : List Ev) (seen : Bool) (k : Nat) :
    scan d seen k (t ++ [.requested d']) = scan d seen k t := by
  induction t generalizing seen k with
  | nil => rfl
  | cons e t ih => cases e <;> simp only [List.cons_append, scan, ih]

theorem scan_append_event (d : Nat) (r : Result) (t : List Ev) (seen : Bool) (k : Nat) :
    scan d seen k (t ++ [.event r]) =
      (scan d seen k t).or (if seen ∨ .requested d ∈ t then some (k + events t, r) else none) := by
  induction t generalizing seen k with
  | nil => cases seen <;> simp [scan, events]
  | cons e t ih =>
    cases e with
    | requested d' =>
      simp only [List.cons_append, scan, ih]
      have : events (Ev.requested d' :: t) = events t := by simp [events]
      rw [this]
      congr 2
      by_cases h : d' = d
      · subst h; simp
      · have h' : ¬ d = d' := fun e => h e.symm
        simp [h, h']
    | event r' =>
      simp only [List.cons_append, scan, ih]
      have : events (Ev.event r' :: t) = events t + 1 := by simp [events]
      rw [this]
      cases seen with
      | true => simp
      | false => simp [Nat.add_assoc, Nat.add_comm 1]
    | fired d' r' =>
      simp only [List.cons_append, scan, ih]
      have : events (Ev.fired d' r' :: t) = events t := by simp [events]
      rw [this]
      simp

/-- Events are numbered from 0. -/
theorem scan_bound (d : Nat) (t : List Ev) (seen : Bool) (k j : Nat) (r : Result) (h : scan d seen k t = some (j, r)) :
    j < k + events t := by
  induction t generalizing seen k with
  | nil => cases h
  | cons e t ih =>
    cases e with
    | requested d' =>
      have := ih _ _ h
      simpa [events] using this
    | event r' =>
      unfold scan at h
      have he : events (Ev.event r' :: t) = events t + 1 := by simp [events]
      cases seen with
      | true => simp at h; obtain ⟨rfl, _⟩ := h; omega
      | false =>
        simp at h
        have := ih _ _ h
        omega
    | fired d' r' =>
      have := ih _ _ h
      simpa [events] using this

/-! ## The invariant -/

/-- `P`: the Deferreds whose event has come, but whose turn has not, innermost event first. -/
structure Inv (st : St) (P : List (Nat × Result)) : Prop where
  requested : ∀ d, .requested d ∈ st.trace ↔ d < st.next
  waiting : ∀ d, d ∈ st.listeners ↔ d < st.next ∧ awaited st.trace d = none
  sorted : st.listeners.Pairwise (· < ·)
  due : ∀ d r, (d, r) ∈ firedOf st.trace ++ P ↔ ∃ k, awaited st.trace d = some (k, r)
  nodup : ((firedOf st.trace ++ P).map (·.1)).Nodup
  order : (firedOf st.trace ++ P).Pairwise fun a b =>
    ∀ k r r', awaited st.trace a.1 = some (k, r) → awaited st.trace b.1 = some (k, r') → a.1 < b.1

def FireOK (f : Result → St → Option St) : Prop := ∀ r st st' P, Inv st P → f r st = some st' → Inv st' P

theorem firedOf_append (t : List Ev) (e : Ev) :
    firedOf (t ++ [e]) = firedOf t ++ match e with | .fired d r => [(d, r)] | _ => [] := by
  unfold firedOf
  rw [List.filterMap_append]
  cases e <;> rfl

theorem awaited_none_of_fresh {st : St} {P : List (Nat × Result)} (h : Inv st P) (d : Nat) (hd : ¬ d < st.next) :
    awaited st.trace d = none := by
  have hn : Ev.requested d ∉ st.trace := fun e => hd ((h.requested d).1 e)
  have gen : ∀ (t : List Ev) k, Ev.requested d ∉ t → scan d false k t = none := by
    intro t
    induction t with
    | nil => intro k _; rfl
    | cons e t ih =>
      intro k hn
      simp only [List.mem_cons, not_or] at hn
      cases e with
      | requested d' =>
        have : (d' == d) = false := by
          simp only [beq_eq_false_iff_ne]
          intro e; exact hn.1 (by rw [e])
        simp only [scan, this, Bool.or_false]
        exact ih k hn.2
      | event r => simp only [scan]; exact ih (k + 1) hn.2
      | fired d' r => simp only [scan]; exact ih k hn.2
  exact gen _ 0 hn

theorem inv_deferred {st : St} {P : List (Nat × Result)} (h : Inv st P) :
    Inv ⟨st.next + 1, st.listeners ++ [st.next], st.trace ++ [.requested st.next]⟩ P := by
  have ha : ∀ d, awaited (st.trace ++ [.requested st.next]) d = awaited st.trace d :=
    fun d => scan_append_requested d _ _ _ _
  have hf : firedOf (st.trace ++ [.requested st.next]) = firedOf st.trace := by
    rw [firedOf_append]; simp
  refine ⟨fun d => ?_, fun d => ?_, ?_, fun d r => ?_, ?_, ?_⟩
  · simp only [List.mem_append, List.mem_singleton, h.requested d, Ev.requested.injEq]; omega
  · simp only [List.mem_append, List.mem_singleton, h.waiting d, ha]
    constructor
    · rintro (⟨a, b⟩ | rfl)
      · exact ⟨by omega, b⟩
      · exact ⟨by omega, awaited_none_of_fresh h _ (by omega)⟩
    · rintro ⟨a, b⟩
      by_cases hd : d = st.next
      · exact Or.inr hd
      · exact Or.inl ⟨by omega, b⟩
  · rw [List.pairwise_append]
    refine ⟨h.sorted, by simp, fun a ha b hb => ?_⟩
    simp only [List.mem_singleton] at hb
    subst hb
    exact ((h.waiting a).1 ha).1
  · simp only [hf, ha]; exact h.due d r
  · simp only [hf]; exact h.nodup
  · simp only [hf, ha]; exact h.order

theorem runActs_ok {f : Result → St → Option St} (hf : FireOK f) (as : List Act) {st st' : St} {P : List (Nat × Result)}
    (h : Inv st P) (hr : runActs f as st = some st') : Inv st' P := by
  induction as generalizing st with
  | nil => cases hr; exact h
  | cons a as ih =>
    unfold runActs at hr
    cases ha : runAct f a st with
    | none => rw [ha] at hr; cases hr
    | some st1 =>
      rw [ha] at hr
      refine ih ?_ hr
      cases a with
      | deferred => cases ha; exact inv_deferred h
      | callback v => exact hf _ _ _ _ h ha
      | errback v => exact hf _ _ _ _ h ha
      | errbackNone c =>
        cases c with
        | none => cases ha; exact h
        | some v => exact hf _ _ _ _ h ha

theorem fireList_ok {f : Result → St → Option St} (hf : FireOK f) (script : Nat → List Act) (r : Result) (l : List Nat)
    {st st' : St} {P : List (Nat × Result)} (h : Inv st (l.map (·, r) ++ P)) (hr : fireList f script r l st = some st') :
    Inv st' P := by
  induction l generalizing st with
  | nil => cases hr; exact h
  | cons d l ih =>
    unfold fireList at hr
    cases ha : runActs f (script d) { st with trace := st.trace ++ [.fired d r] } with
    | none => rw [ha] at hr; cases hr
    | some st1 =>
      rw [ha] at hr
      refine ih (runActs_ok hf (script d) ?_ ha) hr
      have hw : ∀ x, awaited (st.trace ++ [.fired d r]) x = awaited st.trace x := fun x => scan_append_fired x _ _ _ _ _
      have hF : firedOf (st.trace ++ [.fired d r]) ++ (l.map (·, r) ++ P) =
          firedOf st.trace ++ ((d :: l).map (·, r) ++ P) := by
        rw [firedOf_append]; simp
      refine ⟨fun x => ?_, fun x => ?_, h.sorted, fun x q => ?_, ?_, ?_⟩
      · simpa using h.requested x
      · simp only [hw]; exact h.waiting x
      · simp only [hw, hF]; exact h.due x q
      · simp only [hF]; exact h.nodup
      · simp only [hw, hF]; exact h.order

theorem fire_ok (script : Nat → List Act) (fuel : Nat) : FireOK (fire script fuel) := by
  induction fuel with
  | zero => intro r st st' P _ h; cases h
  | succ fuel ih =>
    intro r st st' P h hr
    unfold fire at hr
    refine fireList_ok ih script r st.listeners ?_ hr
    have hw : ∀ x, awaited (st.trace ++ [.event r]) x =
        (awaited st.trace x).or (if x < st.next then some (events st.trace, r) else none) := by
      intro x
      unfold awaited
      rw [scan_append_event]
      simp [h.requested x]
    have hwl : ∀ x, x ∈ st.listeners → awaited (st.trace ++ [.event r]) x = some (events st.trace, r) := by
      intro x hx
      obtain ⟨a, b⟩ := (h.waiting x).1 hx
      rw [hw, b, if_pos a]; rfl
    have hwo : ∀ x k q, awaited st.trace x = some (k, q) →
        awaited (st.trace ++ [.event r]) x = some (k, q) ∧ k < events st.trace := by
      intro x k q hx
      refine ⟨by rw [hw, hx]; rfl, ?_⟩
      have := scan_bound x st.trace false 0 k q hx
      omega
    have hF : firedOf (st.trace ++ [.event r]) = firedOf st.trace := by rw [firedOf_append]; simp
    have hdis : ∀ x q, (x, q) ∈ firedOf st.trace ++ P → x ∉ st.listeners := by
      intro x q hx hl
      obtain ⟨k, e⟩ := (h.due x q).1 hx
      have := ((h.waiting x).1 hl).2
      rw [e] at this; cases this
    refine ⟨fun d => ?_, fun d => ?_, by simp, fun d q => ?_, ?_, ?_⟩
    · simpa using h.requested d
    · simp only [List.not_mem_nil, false_iff, hw, not_and]
      intro hd
      rw [if_pos hd]
      cases awaited st.trace d <;> simp
    · simp only [hF]
      rw [List.mem_append, List.mem_append]
      constructor
      · rintro (hm | hm | hm)
        · obtain ⟨k, e⟩ := (h.due d q).1 (List.mem_append_left _ hm)
          exact ⟨k, (hwo d k q e).1⟩
        · obtain ⟨x, hx, e⟩ := List.mem_map.1 hm
          cases e
          exact ⟨_, hwl d hx⟩
        · obtain ⟨k, e⟩ := (h.due d q).1 (List.mem_append_right _ hm)
          exact ⟨k, (hwo d k q e).1⟩
      · rintro ⟨k, e⟩
        cases ho : awaited st.trace d with
        | some p =>
          obtain ⟨k', q'⟩ := p
          rw [(hwo d k' q' ho).1] at e
          cases e
          rcases List.mem_append.1 ((h.due d q).2 ⟨k, ho⟩) with hm | hm
          · exact Or.inl hm
          · exact Or.inr (Or.inr hm)
        | none =>
          rw [hw, ho] at e
          by_cases hd : d < st.next
          · rw [if_pos hd] at e
            cases e
            exact Or.inr (Or.inl (List.mem_map.2 ⟨d, (h.waiting d).2 ⟨hd, ho⟩, rfl⟩))
          · rw [if_neg hd] at e; cases e
    · simp only [hF]
      have hn := h.nodup
      rw [List.map_append, List.nodup_append] at hn
      obtain ⟨n1, n2, n3⟩ := hn
      have hl : (st.listeners.map (·, r)).map (·.1) = st.listeners := by
        rw [List.map_map]; exact List.map_id _
      rw [List.map_append, List.map_append, hl, List.nodup_append, List.nodup_append]
      refine ⟨n1, ⟨h.sorted.imp (fun a => Nat.ne_of_lt a), n2, fun a ha b hb e => ?_⟩, fun a ha b hb e => ?_⟩
      · subst e
        obtain ⟨⟨x, q⟩, hx, rfl⟩ := List.mem_map.1 hb
        exact hdis x q (List.mem_append_right _ hx) ha
      · subst e
        rcases List.mem_append.1 hb with hb | hb
        · obtain ⟨⟨x, q⟩, hx, rfl⟩ := List.mem_map.1 ha
          exact hdis x q (List.mem_append_left _ hx) hb
        · exact n3 a ha a hb rfl
    · simp only [hF]
      -- old pairs keep their order; new ones wait for another event than old ones
      have hold : ∀ a ∈ firedOf st.trace ++ P, ∃ k q, awaited st.trace a.1 = some (k, q) ∧
          awaited (st.trace ++ [.event r]) a.1 = some (k, q) ∧ k < events st.trace := by
        rintro ⟨x, q⟩ hx
        obtain ⟨k, e⟩ := (h.due x q).1 hx
        exact ⟨k, q, e, (hwo x k q e).1, (hwo x k q e).2⟩
      have ho := h.order
      have ho' : (firedOf st.trace ++ P).Pairwise fun a b => ∀ k r' r'',
          awaited (st.trace ++ [.event r]) a.1 = some (k, r') → awaited (st.trace ++ [.event r]) b.1 = some (k, r'') →
          a.1 < b.1 := by
        refine List.Pairwise.imp_of_mem ?_ ho
        intro a b ha hb hab k r' r'' e e'
        obtain ⟨ka, qa, a1, a2, _⟩ := hold a ha
        obtain ⟨kb, qb, b1, b2, _⟩ := hold b hb
        rw [a2] at e; rw [b2] at e'
        cases e; cases e'
        exact hab _ _ _ a1 b1
      rw [List.pairwise_append] at ho' ⊢
      obtain ⟨p1, p2, p3⟩ := ho'
      refine ⟨p1, ?_, fun a ha b hb => ?_⟩
      · rw [List.pairwise_append]
        refine ⟨?_, p2, fun a ha b hb => ?_⟩
        · rw [List.pairwise_map]
          exact h.sorted.imp (fun hab _ _ _ _ _ => hab)
        · intro k r' r'' e e'
          obtain ⟨x, hx, rfl⟩ := List.mem_map.1 ha
          rw [hwl x hx] at e
          obtain ⟨kb, qb, _, b2, b3⟩ := hold b (List.mem_append_right _ hb)
          rw [b2] at e'
          cases e; cases e'
          omega
      · rcases List.mem_append.1 hb with hb | hb
        · intro k r' r'' e e'
          obtain ⟨x, hx, rfl⟩ := List.mem_map.1 hb
          rw [hwl x hx] at e'
          obtain ⟨ka, qa, _, a2, a3⟩ := hold a (List.mem_append_left _ ha)
          rw [a2] at e
          cases e; cases e'
          omega
        · exact p3 a ha b hb

theorem run_inv (script : Nat → List Act) (fuel : Nat) (as : List Act) {st : St} (h : run script fuel as = some st) :
    Inv st [] := by
  refine runActs_ok (fire_ok script fuel) as ?_ h
  refine ⟨by simp, by simp, by simp, fun d r => ?_, by simp [firedOf], by simp [firedOf]⟩
  simp [firedOf, awaited, scan]

/-- **C59**: after any history, with any re-entrant requests and events, a Deferred has fired with `r` if and only if the
first event after it was handed out had the result `r`. -/
theorem pending_first_event (script : Nat → List Act) (fuel : Nat) (as : List Act) {st : St}
    (h : run script fuel as = some st) (d : Nat) (r : Result) :
    .fired d r ∈ st.trace ↔ ∃ k, awaited st.trace d = some (k, r) := by
  rw [← (run_inv script fuel as h).due d r]
  simp [firedOf, List.mem_filterMap]
  constructor
  · intro hm; exact ⟨_, hm, rfl⟩
  · rintro ⟨e, hm, he⟩
    cases e <;> simp at he
    obtain ⟨rfl, rfl⟩ := he; exact hm

/-- **C59**: no Deferred fires twice, and those of the same event fire in the order of their requests. -/
theorem pending_once_in_order (script : Nat → List Act) (fuel : Nat) (as : List Act) {st : St}
    (h : run script fuel as = some st) :
    ((firedOf st.trace).map (·.1)).Nodup ∧
    (firedOf st.trace).Pairwise fun a b =>
      ∀ k r r', awaited st.trace a.1 = some (k, r) → awaited st.trace b.1 = some (k, r') → a.1 < b.1 := by
  have hi := run_inv script fuel as h
  have h1 := hi.nodup
  have h2 := hi.order
  rw [List.append_nil] at h1 h2
  exact ⟨h1, h2⟩

/-- **C59**: exactly the numbers below `next` have been handed out, and those that still wait are those after whose
request nothing has happened. -/
theorem pending_waiting (script : Nat → List Act) (fuel : Nat) (as : List Act) {st : St}
    (h : run script fuel as = some st) :
    (∀ d, .requested d ∈ st.trace ↔ d < st.next) ∧ ∀ d, d ∈ st.listeners ↔ d < st.next ∧ ∀ r, .fired d r ∉ st.trace := by
  have hi := run_inv script fuel as h
  refine ⟨hi.requested, fun d => ?_⟩
  rw [hi.waiting d]
  constructor
  · rintro ⟨a, b⟩
    refine ⟨a, fun r hr => ?_⟩
    obtain ⟨k, e⟩ := (pending_first_event script fuel as h d r).1 hr
    rw [b] at e; cases e
  · rintro ⟨a, b⟩
    refine ⟨a, ?_⟩
    cases e : awaited st.trace d with
    | none => rfl
    | some p => exact absurd ((pending_first_event script fuel as h d p.2).2 ⟨p.1, e⟩) (b p.2)

/-- A request number is handed out once: the requests in the trace are 0, 1, 2, … in order. -/
theorem pending_requests (script : Nat → List Act) (fuel : Nat) (as : List Act) {st : St}
    (h : run script fuel as = some st) :
    (st.trace.filterMap fun e => match e with | .requested d => some d | _ => none) = List.range st.next := by
  let req : List Ev → List Nat := fun t => t.filterMap fun e => match e with | .requested d => some d | _ => none
  have happ : ∀ t e, req (t ++ [e]) = req t ++ match e with | .requested d => [d] | _ => [] := by
    intro t e
    simp only [req, List.filterMap_append]
    cases e <;> rfl
  let OK : St → Prop := fun st => req st.trace = List.range st.next
  have acts : ∀ (f : Result → St → Option St), (∀ r st st', OK st → f r st = some st' → OK st') →
      ∀ (as : List Act) (st st' : St), OK st → runActs f as st = some st' → OK st' := by
    intro f hf as
    induction as with
    | nil => intro st st' h e; cases e; exact h
    | cons a as ih =>
      intro st st' h e
      unfold runActs at e
      cases ha : runAct f a st with
      | none => rw [ha] at e; cases e
      | some st1 =>
        rw [ha] at e
        refine ih st1 st' ?_ e
        cases a with
        | deferred =>
          cases ha
          show req (st.trace ++ [.requested st.next]) = List.range (st.next + 1)
          rw [happ, List.range_succ]
          show req st.trace ++ _ = _
          rw [h]
        | callback v => exact hf _ _ _ h ha
        | errback v => exact hf _ _ _ h ha
        | errbackNone c =>
          cases c with
          | none => cases ha; exact h
          | some v => exact hf _ _ _ h ha
  have fires : ∀ fuel r st st', OK st → fire script fuel r st = some st' → OK st' := by
    intro fuel
    induction fuel with
    | zero => intro r st st' _ e; cases e
    | succ fuel ih =>
      intro r st st' h e
      unfold fire at e
      have lst : ∀ (l : List Nat) (st st' : St), OK st → fireList (fire script fuel) script r l st = some st' → OK st' := by
        intro l
        induction l with
        | nil => intro st st' h e; cases e; exact h
        | cons d l ihl =>
          intro st st' h e
          unfold fireList at e
          cases ha : runActs (fire script fuel) (script d) { st with trace := st.trace ++ [.fired d r] } with
          | none => rw [ha] at e; cases e
          | some st1 =>
            rw [ha] at e
            refine ihl st1 st' (acts _ ih (script d) _ _ ?_ ha) e
            show req (st.trace ++ [.fired d r]) = List.range st.next
            rw [happ, List.append_nil]; exact h
      refine lst _ _ _ ?_ e
      show req (st.trace ++ [.event r]) = List.range st.next
      rw [happ, List.append_nil]; exact h
  exact acts _ (fires fuel) as ⟨0, [], []⟩ st rfl h

/-- The first Deferred asks for another one and causes a second event while the second still waits for its turn. -/
def demoScript : Nat → List Act := fun d => if d = 0 then [.deferred, .errback 9] else [.errbackNone none, .deferred]

example : run demoScript 3 [.deferred, .deferred, .callback 5] =
    some ⟨5, [3, 4], [.requested 0, .requested 1, .event (.success 5), .fired 0 (.success 5), .requested 2,
      .event (.failure 9), .fired 2 (.failure 9), .requested 3, .fired 1 (.success 5), .requested 4]⟩ := by decide

end Verif.Pending
