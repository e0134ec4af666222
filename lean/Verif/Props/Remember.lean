import Verif.Model.Remember
/-!
# C56: `remembered`
-/
namespace Verif.Remember
open Verif.Py

/-- The values that creation functions of that name have returned for the instance. -/
def made (st : St) (i : Nat) (n : Name) : List (Nat × Desc × Value) :=
  st.log.filter fun e => e.1 = i ∧ e.2.1.name = n

/-- The value kept. -/
def kept (st : St) (i : Nat) (n : Name) : Value := (Dict.get? (st.store i) (rememberName n)).getD none

/-- A program of rank `R`: it reads only attributes of lower rank, and does not return `None`. -/
def Prog.OK (rank : Nat → Name → Nat) (R : Nat) : Prog → Prop
  | .ret v => v ≠ none
  | .raise _ => True
  | .access i d k => rank i d.name < R ∧ ∀ r, (k r).OK rank R

/-- The creation functions do not read each other in circles, and never return `None`. -/
def Ranked (rank : Nat → Name → Nat) (body : Bodies) : Prop := ∀ d i c, (body d i c).OK rank (rank i d.name)

/-- Each attribute has at most one value made for it, and that is kept. -/
def Inv (st : St) : Prop := ∀ i n, (kept st i n = none ∧ made st i n = []) ∨
  ∃ d v, kept st i n = some v ∧ made st i n = [(i, d, some v)] ∧ d.name = n

/-- What a step of rank below `R` may do: keep the invariant and all values kept, and not touch ranks from `R` on. -/
structure Step (rank : Nat → Name → Nat) (R : Nat) (st st' : St) : Prop where
  inv : Inv st'
  stable : ∀ i n, kept st i n ≠ none → kept st' i n = kept st i n ∧ made st' i n = made st i n
  low : ∀ i n, R ≤ rank i n → kept st' i n = kept st i n ∧ made st' i n = made st i n

theorem rememberName_inj {m n : Name} (h : rememberName m = rememberName n) : m = n := by
  unfold rememberName at h
  exact List.append_cancel_left h

theorem Step.refl {rank : Nat → Name → Nat} {R : Nat} {st : St} (h : Inv st) : Step rank R st st :=
  ⟨h, fun _ _ _ => ⟨rfl, rfl⟩, fun _ _ _ => ⟨rfl, rfl⟩⟩

theorem Step.trans {rank : Nat → Name → Nat} {R : Nat} {a b c : St} (h : Step rank R a b) (h' : Step rank R b c) :
    Step rank R a c := by
  refine ⟨h'.inv, fun i n hn => ?_, fun i n hn => ?_⟩
  · have e := h.stable i n hn
    have e' := h'.stable i n (by rw [e.1]; exact hn)
    exact ⟨e'.1.trans e.1, e'.2.trans e.2⟩
  · have e := h.low i n hn
    have e' := h'.low i n hn
    exact ⟨e'.1.trans e.1, e'.2.trans e.2⟩

theorem Step.mono {rank : Nat → Name → Nat} {R R' : Nat} {a b : St} (h : Step rank R a b) (hR : R ≤ R') :
    Step rank R' a b := ⟨h.inv, h.stable, fun i n hn => h.low i n (by omega)⟩

/-- Reading an attribute. -/
def GetOK (rank : Nat → Name → Nat) (g : St → Nat → Desc → Option (St × Except PyErr Value)) : Prop :=
  ∀ st i d st' r, Inv st → g st i d = some (st', r) → Step rank (rank i d.name + 1) st st' ∧
    ∀ v, r = .ok v → v ≠ none ∧ kept st' i d.name = v

theorem runP_ok {rank : Nat → Name → Nat} {g : St → Nat → Desc → Option (St × Except PyErr Value)} (hg : GetOK rank g)
    (p : Prog) {R : Nat} (hp : p.OK rank R) {st st' : St} {r : Except PyErr Value} (hi : Inv st)
    (h : runP g p st = some (st', r)) : Step rank R st st' ∧ ∀ v, r = .ok v → v ≠ none := by
  induction p generalizing st with
  | ret v =>
    cases h
    exact ⟨Step.refl hi, fun w e => by cases e; exact hp⟩
  | raise e =>
    cases h
    exact ⟨Step.refl hi, fun w e => by cases e⟩
  | access i d k ih =>
    unfold runP at h
    cases hgd : g st i d with
    | none => rw [hgd] at h; cases h
    | some x =>
      obtain ⟨st1, r1⟩ := x
      rw [hgd] at h
      obtain ⟨s1, _⟩ := hg st i d st1 r1 hi hgd
      obtain ⟨s2, hv⟩ := ih r1 (hp.2 r1) s1.inv h
      have := hp.1
      exact ⟨(s1.mono (by omega)).trans s2, hv⟩

theorem get_ok {rank : Nat → Name → Nat} {body : Bodies} (hb : Ranked rank body) (fuel : Nat) :
    GetOK rank (get body fuel) := by
  induction fuel with
  | zero => intro st i d st' r _ h; cases h
  | succ fuel ih =>
    intro st i d st' r hi h
    unfold get at h
    cases hk : (Dict.get? (st.store i) (rememberName d.name)).getD none with
    | some v =>
      rw [hk] at h
      cases h
      exact ⟨Step.refl hi, fun w e => by cases e; exact ⟨by simp, hk⟩⟩
    | none =>
      rw [hk] at h
      simp only at h
      cases hr : runP (get body fuel) (body d i st.tick) { st with tick := st.tick + 1 } with
      | none => rw [hr] at h; cases h
      | some x =>
        obtain ⟨st1, r1⟩ := x
        rw [hr] at h
        obtain ⟨s, hv⟩ := runP_ok ih _ (hb d i st.tick) (st := { st with tick := st.tick + 1 }) hi hr
        have s : Step rank (rank i d.name) st st1 := ⟨s.inv, s.stable, s.low⟩
        have hk0 : kept st i d.name = none := hk
        cases r1 with
        | error e =>
          cases h
          exact ⟨s.mono (by omega), fun w e => by cases e⟩
        | ok v =>
          cases h
          have hv := hv v rfl
          obtain ⟨w, rfl⟩ := Option.ne_none_iff_exists'.1 hv
          -- what the new state has
          have hkept : ∀ j n, kept { st1 with
              store := fun j => if j = i then Dict.set (st1.store i) (rememberName d.name) (some w) else st1.store j
              log := st1.log ++ [(i, d, some w)] } j n = if j = i ∧ n = d.name then some w else kept st1 j n := by
            intro j n
            unfold kept
            simp only
            by_cases hj : j = i
            · subst hj
              rw [if_pos rfl, Dict.get?_set]
              by_cases hn : n = d.name
              · subst hn; simp
              · rw [if_neg (fun e => hn (rememberName_inj e).symm), if_neg (fun e => hn e.2)]
            · rw [if_neg hj, if_neg (fun e => hj e.1)]
          have hmade : ∀ j n, made { st1 with
              store := fun j => if j = i then Dict.set (st1.store i) (rememberName d.name) (some w) else st1.store j
              log := st1.log ++ [(i, d, some w)] } j n =
                made st1 j n ++ if j = i ∧ n = d.name then [(i, d, some w)] else [] := by
            intro j n
            unfold made
            simp only [List.filter_append]
            congr 1
            rw [List.filter_cons]
            by_cases hc : j = i ∧ n = d.name
            · obtain ⟨rfl, rfl⟩ := hc; simp
            · rw [if_neg hc, if_neg]
              · rfl
              · simp only [decide_eq_true_eq]; exact fun e => hc ⟨e.1.symm, e.2.symm⟩
          have hlow := s.low i d.name (Nat.le_refl _)
          have hempty : made st1 i d.name = [] := by
            rcases s.inv i d.name with ⟨_, e⟩ | ⟨_, _, e, _⟩
            · exact e
            · rw [hlow.1, hk0] at e; cases e
          refine ⟨⟨fun j n => ?_, fun j n hn => ?_, fun j n hn => ?_⟩, fun u e => ?_⟩
          · rw [hkept, hmade]
            by_cases hc : j = i ∧ n = d.name
            · obtain ⟨rfl, rfl⟩ := hc
              right
              exact ⟨d, w, by simp, by rw [hempty]; simp, rfl⟩
            · rw [if_neg hc, if_neg hc, List.append_nil]; exact s.inv j n
          · rw [hkept, hmade]
            have hc : ¬ (j = i ∧ n = d.name) := by
              rintro ⟨rfl, rfl⟩; exact hn hk0
            rw [if_neg hc, if_neg hc, List.append_nil]
            exact s.stable j n hn
          · rw [hkept, hmade]
            have hc : ¬ (j = i ∧ n = d.name) := by
              rintro ⟨rfl, rfl⟩; omega
            rw [if_neg hc, if_neg hc, List.append_nil]
            exact s.low j n (by omega)
          · cases e
            exact ⟨by simp, by rw [hkept, if_pos ⟨rfl, rfl⟩]⟩

theorem inv_start {dicts : Nat → Dict Name Value} (h : ∀ i n, (Dict.get? (dicts i) (rememberName n)) = none) :
    Inv (start dicts) := by
  intro i n
  left
  unfold kept start made
  simp [h i n]

/-- **C56, partial**: if creation functions do not read each other in circles and never return `None`, then in every
history of accesses to instances that have nothing remembered yet, for each instance and name a creation function
returns at most once, and every access that does not raise yields that value.  Missing: `None`
(`remember_none_fails`), circles (`remember_circle_fails`). -/
theorem remember_once_partial {rank : Nat → Name → Nat} {body : Bodies} (hb : Ranked rank body) (fuel : Nat)
    {dicts : Nat → Dict Name Value} (hs : ∀ i n, (Dict.get? (dicts i) (rememberName n)) = none)
    {as : List (Nat × Desc)} {st : St} {rs : List (Except PyErr Value)}
    (h : history body fuel as (start dicts) = some (st, rs)) :
    (∀ i n, (made st i n).length ≤ 1) ∧
    rs.length = as.length ∧ ∀ (k i : Nat) (d : Desc) (v : Value), as[k]? = some (i, d) → rs[k]? = some (.ok v) →
      ∃ d', made st i d.name = [(i, d', v)] ∧ d'.name = d.name := by
  have gen : ∀ (as : List (Nat × Desc)) (st0 st : St) (rs : List (Except PyErr Value)), Inv st0 →
      history body fuel as st0 = some (st, rs) → Inv st ∧
      (∀ i n, kept st0 i n ≠ none → kept st i n = kept st0 i n) ∧ rs.length = as.length ∧
      ∀ (k i : Nat) (d : Desc) (v : Value), as[k]? = some (i, d) → rs[k]? = some (.ok v) → v ≠ none ∧ kept st i d.name = v := by
    intro as
    induction as with
    | nil =>
      intro st0 st rs hi h
      cases h
      exact ⟨hi, fun _ _ _ => rfl, rfl, fun k i d v h => by simp at h⟩
    | cons a as ih =>
      obtain ⟨i0, d0⟩ := a
      intro st0 st rs hi h
      unfold history at h
      cases hg : get body fuel st0 i0 d0 with
      | none => rw [hg] at h; cases h
      | some x =>
        obtain ⟨st1, r⟩ := x
        rw [hg] at h
        simp only at h
        obtain ⟨s, hv⟩ := get_ok hb fuel st0 i0 d0 st1 r hi hg
        cases hh : history body fuel as st1 with
        | none => rw [hh] at h; cases h
        | some y =>
          obtain ⟨st2, rs'⟩ := y
          rw [hh] at h
          cases h
          obtain ⟨i1, i2, i3, i4⟩ := ih st1 st rs' s.inv hh
          refine ⟨i1, fun i n hn => ?_, by simp [i3], fun k i d v ha hr => ?_⟩
          · rw [i2 i n (by rw [(s.stable i n hn).1]; exact hn), (s.stable i n hn).1]
          · cases k with
            | zero =>
              simp only [List.getElem?_cons_zero, Option.some.injEq, Prod.mk.injEq] at ha hr
              obtain ⟨rfl, rfl⟩ := ha
              obtain ⟨h1, h2⟩ := hv v hr
              exact ⟨h1, by rw [i2 i0 d0.name (by rw [h2]; exact h1), h2]⟩
            | succ k =>
              simp only [List.getElem?_cons_succ] at ha hr
              exact i4 k i d v ha hr
  obtain ⟨h1, _, h3, h4⟩ := gen as _ st rs (inv_start hs) h
  refine ⟨fun i n => ?_, h3, fun k i d v ha hr => ?_⟩
  · rcases h1 i n with ⟨_, e⟩ | ⟨_, _, _, e, _⟩ <;> rw [e] <;> simp
  · obtain ⟨hv, hk⟩ := h4 k i d v ha hr
    rcases h1 i d.name with ⟨e, _⟩ | ⟨d', w, e, e', e''⟩
    · rw [hk] at e; exact absurd e hv
    · rw [hk] at e; subst e
      exact ⟨d', e', e''⟩

/-- An access that ends touches nothing but remembered values: other attributes stay as they are. -/
theorem remember_frame (body : Bodies) (fuel : Nat) {st st' : St} {i : Nat} {d : Desc} {r : Except PyErr Value}
    (h : get body fuel st i d = some (st', r)) (j : Nat) (a : Name) (ha : ∀ n, a ≠ rememberName n) :
    Dict.get? (st'.store j) a = Dict.get? (st.store j) a := by
  induction fuel generalizing st st' i d r with
  | zero => cases h
  | succ fuel ih =>
    have run : ∀ (p : Prog) (st st' : St) r, runP (get body fuel) p st = some (st', r) →
        Dict.get? (st'.store j) a = Dict.get? (st.store j) a := by
      intro p
      induction p with
      | ret v => intro st st' r h; cases h; rfl
      | raise e => intro st st' r h; cases h; rfl
      | access i d k ih' =>
        intro st st' r h
        unfold runP at h
        cases hgd : get body fuel st i d with
        | none => rw [hgd] at h; cases h
        | some x =>
          obtain ⟨st1, r1⟩ := x
          rw [hgd] at h
          rw [ih' r1 st1 st' r h, ih hgd]
    unfold get at h
    split at h
    · cases h; rfl
    · split at h
      · cases h
      · rename_i hr; cases h; exact run _ { st with tick := st.tick + 1 } _ _ hr
      · rename_i hr; cases h
        simp only
        have hrun := run _ { st with tick := st.tick + 1 } _ _ hr
        simp only at hrun
        rw [← hrun]
        by_cases hj : j = i
        · subst hj; rw [if_pos rfl, Dict.get?_set, if_neg (fun e => ha _ e.symm)]
        · rw [if_neg hj]

/-- A creation function that returns `None` is called again each time. -/
theorem remember_none_fails : ∃ (body : Bodies) (as : List (Nat × Desc)) (st : St) (rs : List (Except PyErr Value)),
    history body 1 as (start fun _ => []) = some (st, rs) ∧ (made st 0 [97]).length = 2 :=
  ⟨fun _ _ _ => .ret none, [(0, ⟨[97], 0⟩), (0, ⟨[97], 0⟩)], _, _, rfl, rfl⟩

/-- A creation function that reads its own attribute runs twice, and the value read first is not the one kept. -/
theorem remember_circle_fails : ∃ (body : Bodies) (as : List (Nat × Desc)) (st : St) (rs : List (Except PyErr Value)),
    history body 2 as (start fun _ => []) = some (st, rs) ∧ (made st 0 [97]).length = 2 :=
  ⟨fun d i c => if c = 0 then .access i d (fun _ => .ret (some 1)) else .ret (some 2), [(0, ⟨[97], 0⟩)], _, _, rfl, rfl⟩

/-- Two attributes whose creation functions have the same `__name__` (for example when a subclass overrides one and
calls the other) share one value. -/
theorem remember_clash_fails : ∃ (body : Bodies) (d d' : Desc) (st : St), d ≠ d' ∧
    (∀ i c, body d' i c = .ret (some 2)) ∧
    history body 1 [(0, d), (0, d')] (start fun _ => []) = some (st, [.ok (some 1), .ok (some 1)]) :=
  ⟨fun d _ _ => .ret (some (d.fn + 1)), ⟨[97], 0⟩, ⟨[97], 1⟩, _, by decide, fun _ _ => rfl, rfl⟩

/-- `b` reads `a` of the same instance; `a` fails the first time. -/
def demo : Bodies := fun d i c =>
  if d.name = [98] then .access i ⟨[97], 0⟩ fun r => match r with | .ok v => .ret (v.map (· + 10)) | .error e => .raise e
  else if c = 1 then .raise .valueError else .ret (some (c + i))

example : ∃ st, history demo 2 [(0, ⟨[98], 1⟩), (0, ⟨[98], 1⟩), (7, ⟨[97], 0⟩), (0, ⟨[97], 0⟩)] (start fun _ => []) =
    some (st, [.error .valueError, .ok (some 13), .ok (some 11), .ok (some 3)]) := ⟨_, rfl⟩

example : Ranked (fun _ n => if n = [98] then 1 else 0) fun d i c =>
    if d.name = [98] then .access i ⟨[97], 0⟩ fun _ => .ret (some 5) else .ret (some (c + i)) := by
  intro d i c
  by_cases h : d.name = [98]
  · simp only [h, if_true, Prog.OK]
    exact ⟨by decide, fun _ => by simp⟩
  · simp [h, Prog.OK]

end Verif.Remember
