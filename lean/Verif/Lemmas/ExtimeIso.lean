import Verif.Model.ExtimeIso
import Verif.Lemmas.Extime
/-!
# The grammar of ISO 8601 strings, and the pattern

`Iso` is the abstract syntax of the strings the pattern is meant to accept, `Iso.render` writes them down.  The
pattern accepts exactly these, and finds the groups they are made of.
-/
namespace Verif.Extime
open Verif.Py

/-- A string of `n` digits. -/
def IsDig (D : Digits) (n : Nat) (s : List Nat) : Prop := s.length = n ∧ ∀ c ∈ s, D.is c = true

/-- An optional delimiter. -/
def sep (c : Nat) (b : Bool) : List Nat := if b then [c] else []

inductive FullDate where
  | ymd (b : Bool) (m : List Nat) (b' : Bool) (d : List Nat)
  | ywd (b : Bool) (w : List Nat) (b' : Bool) (d : List Nat)
  | yd (b : Bool) (n : List Nat)

inductive Clock where
  | hh (h : List Nat)
  | hm (h : List Nat) (b : Bool) (m : List Nat)
  | hms (h : List Nat) (b : Bool) (m : List Nat) (b' : Bool) (s : List Nat)
  | frac (h : List Nat) (b : Bool) (m : List Nat) (b' : Bool) (s : List Nat) (comma : Bool) (f : List Nat)

inductive Zone where
  | unstated
  | zulu
  | hour (neg : Bool) (h : List Nat)
  | hourMin (neg : Bool) (h : List Nat) (b : Bool) (m : List Nat)

inductive Rest where
  | nothing
  | month (b : Bool) (m : List Nat)
  | week (b : Bool) (w : List Nat)
  | day (fd : FullDate)
  | time (fd : FullDate) (c : Clock) (z : Zone)

structure Iso where
  year : List Nat
  rest : Rest

def FullDate.WF (D : Digits) : FullDate → Prop
  | .ymd _ m _ d => IsDig D 2 m ∧ IsDig D 2 d
  | .ywd _ w _ d => IsDig D 2 w ∧ IsDig D 1 d
  | .yd _ n => IsDig D 3 n

def Clock.WF (D : Digits) : Clock → Prop
  | .hh h => IsDig D 2 h
  | .hm h _ m => IsDig D 2 h ∧ IsDig D 2 m
  | .hms h _ m _ s => IsDig D 2 h ∧ IsDig D 2 m ∧ IsDig D 2 s
  | .frac h _ m _ s _ f => IsDig D 2 h ∧ IsDig D 2 m ∧ IsDig D 2 s ∧ f ≠ [] ∧ ∀ c ∈ f, D.is c = true

def Zone.WF (D : Digits) : Zone → Prop
  | .unstated => True
  | .zulu => True
  | .hour _ h => IsDig D 2 h
  | .hourMin _ h _ m => IsDig D 2 h ∧ IsDig D 2 m

def Rest.WF (D : Digits) : Rest → Prop
  | .nothing => True
  | .month _ m => IsDig D 2 m
  | .week _ w => IsDig D 2 w
  | .day fd => fd.WF D
  | .time fd c z => fd.WF D ∧ c.WF D ∧ z.WF D

def Iso.WF (D : Digits) (i : Iso) : Prop := IsDig D 4 i.year ∧ i.rest.WF D

/-- Writing: `MM-DD`, `Www-D`, `DDD`, each with optional dashes… -/
def FullDate.render : FullDate → List Nat
  | .ymd b m b' d => sep 45 b ++ m ++ sep 45 b' ++ d
  | .ywd b w b' d => sep 45 b ++ [87] ++ w ++ sep 45 b' ++ d
  | .yd b n => sep 45 b ++ n

/-- …`hh[:mm[:ss[.f…]]]`… -/
def Clock.render : Clock → List Nat
  | .hh h => h
  | .hm h b m => h ++ sep 58 b ++ m
  | .hms h b m b' s => h ++ sep 58 b ++ m ++ sep 58 b' ++ s
  | .frac h b m b' s comma f => h ++ sep 58 b ++ m ++ sep 58 b' ++ s ++ [if comma then 44 else 46] ++ f

/-- …`Z`, `±hh[:mm]`… -/
def Zone.render : Zone → List Nat
  | .unstated => []
  | .zulu => [90]
  | .hour neg h => [if neg then 45 else 43] ++ h
  | .hourMin neg h b m => [if neg then 45 else 43] ++ h ++ sep 58 b ++ m

def Rest.render : Rest → List Nat
  | .nothing => []
  | .month b m => sep 45 b ++ m
  | .week b w => sep 45 b ++ [87] ++ w
  | .day fd => fd.render
  | .time fd c z => fd.render ++ [84] ++ c.render ++ z.render

def Iso.render (i : Iso) : List Nat := i.year ++ i.rest.render

/-- The groups a piece of syntax stands for. -/
def FullDate.put (g : Groups) : FullDate → Groups
  | .ymd _ m _ d => { g with month2 := some m, day := some d }
  | .ywd _ w _ d => { g with week2 := some w, weekday := some d }
  | .yd _ n => { g with dayofyear := some n }

def Clock.put (g : Groups) : Clock → Groups
  | .hh h => { g with hour := some h }
  | .hm h _ m => { g with hour := some h, minute := some m }
  | .hms h _ m _ s => { g with hour := some h, minute := some m, second := some s }
  | .frac h _ m _ s _ f => { g with hour := some h, minute := some m, second := some s, frac := some f }

def Zone.put (g : Groups) : Zone → Groups
  | .unstated => g
  | .zulu => { g with zulu := true }
  | .hour neg h => { g with tzhour := some (neg, h) }
  | .hourMin neg h _ m => { g with tzhour := some (neg, h), tzmin := some m }

def Rest.put (g : Groups) : Rest → Groups
  | .nothing => g
  | .month _ m => { g with month1 := some m }
  | .week _ w => { g with week1 := some w }
  | .day fd => fd.put g
  | .time fd c z => z.put (c.put (fd.put g))

def Iso.groups (i : Iso) : Groups := i.rest.put { year := i.year }

/-! ## Every match comes from the grammar -/

section
variable (D : Digits)

theorem mem_rDigits {n : Nat} {s : List Nat} {x : List Nat × List Nat} :
    x ∈ rDigits D n s ↔ IsDig D n x.1 ∧ s = x.1 ++ x.2 := by
  obtain ⟨a, b⟩ := x
  unfold rDigits IsDig
  constructor
  · intro h
    split at h
    · rename_i hc
      simp only [List.mem_singleton, Prod.mk.injEq] at h
      obtain ⟨rfl, rfl⟩ := h
      exact ⟨⟨hc.1, fun c hcm => List.all_eq_true.1 hc.2 c hcm⟩, (List.take_append_drop n s).symm⟩
    · simp at h
  · rintro ⟨⟨h1, h2⟩, h3⟩
    simp only at h1 h2 h3
    subst h3
    have ht : (a ++ b).take n = a := by rw [← h1]; simp
    have hd : (a ++ b).drop n = b := by rw [← h1]; simp
    rw [ht, hd, if_pos ⟨h1, List.all_eq_true.2 h2⟩]
    simp

theorem mem_rLit {c : Nat} {s r : List Nat} : r ∈ rLit c s ↔ s = c :: r := by
  cases s with
  | nil => simp [rLit]
  | cons x s =>
    simp only [rLit]
    split
    · rename_i h; subst h; simp [eq_comm]
    · rename_i h; simp [h]

theorem mem_rOpt {c : Nat} {s r : List Nat} : r ∈ rOpt c s ↔ ∃ b, s = sep c b ++ r := by
  unfold rOpt
  rw [List.mem_append, mem_rLit]
  constructor
  · rintro (h | h)
    · exact ⟨true, by simpa [sep] using h⟩
    · exact ⟨false, by simpa [sep, eq_comm] using h⟩
  · rintro ⟨b, h⟩
    cases b
    · right; simpa [sep, eq_comm] using h
    · left; simpa [sep] using h

theorem mem_rOptDigits {c n : Nat} {s : List Nat} {x : List Nat × List Nat} :
    x ∈ rOptDigits D c n s ↔ ∃ b, IsDig D n x.1 ∧ s = sep c b ++ x.1 ++ x.2 := by
  unfold rOptDigits
  simp only [List.mem_flatMap, mem_rOpt, mem_rDigits]
  constructor
  · rintro ⟨a, ⟨b, h1⟩, h2, h3⟩
    exact ⟨b, h2, by rw [h1, h3, List.append_assoc]⟩
  · rintro ⟨b, h2, h3⟩
    exact ⟨x.1 ++ x.2, ⟨b, by rw [h3, List.append_assoc]⟩, h2, rfl⟩

theorem mem_rWeek {s : List Nat} {x : List Nat × List Nat} :
    x ∈ rWeek D s ↔ ∃ b, IsDig D 2 x.1 ∧ s = sep 45 b ++ [87] ++ x.1 ++ x.2 := by
  unfold rWeek
  simp only [List.mem_flatMap, mem_rOpt, mem_rLit, mem_rDigits]
  constructor
  · rintro ⟨a, ⟨b, h1⟩, a', h2, h3, h4⟩
    exact ⟨b, h3, by rw [h1, h2, h4]; simp⟩
  · rintro ⟨b, h2, h3⟩
    exact ⟨87 :: (x.1 ++ x.2), ⟨b, by rw [h3]; simp⟩, x.1 ++ x.2, rfl, h2, rfl⟩

theorem mem_rMany {s : List Nat} {x : List Nat × List Nat} :
    x ∈ rMany D s → x.1 ≠ [] ∧ (∀ c ∈ x.1, D.is c = true) ∧ s = x.1 ++ x.2 := by
  unfold rMany
  intro h
  simp only [List.mem_map, List.mem_reverse, List.mem_range] at h
  obtain ⟨k, hk, rfl⟩ := h
  have hp : s.takeWhile D.is <+: s := List.takeWhile_prefix _
  have hl := hp.length_le
  refine ⟨?_, ?_, (List.take_append_drop _ _).symm⟩
  · intro hc
    have := congrArg List.length hc
    rw [List.length_take, List.length_nil] at this
    omega
  · intro c hc
    simp only at hc
    have : s.take (k + 1) <+: s.takeWhile D.is := by
      apply List.prefix_of_prefix_length_le (List.take_prefix _ _) hp
      simp; omega
    exact List.all_eq_true.1 (List.all_takeWhile (p := D.is) (l := s)) c (this.subset hc)

theorem mem_rDay {g : Groups} {s : List Nat} {x : Groups × List Nat} (h : x ∈ rDay D g s) :
    ∃ fd : FullDate, fd.WF D ∧ s = fd.render ++ x.2 ∧ x.1 = fd.put g := by
  unfold rDay at h
  simp only [List.mem_append, List.mem_flatMap, List.mem_map, mem_rOptDigits, mem_rWeek] at h
  rcases h with (⟨m, ⟨b, h1, h2⟩, d, ⟨b', h3, h4⟩, rfl⟩ | ⟨m, ⟨b, h1, h2⟩, d, ⟨b', h3, h4⟩, rfl⟩) | ⟨d, ⟨b, h1, h2⟩, rfl⟩
  · exact ⟨.ymd b m.1 b' d.1, ⟨h1, h3⟩, by rw [h2, h4]; simp [FullDate.render], rfl⟩
  · exact ⟨.ywd b m.1 b' d.1, ⟨h1, h3⟩, by rw [h2, h4]; simp [FullDate.render], rfl⟩
  · exact ⟨.yd b d.1, h1, by rw [h2]; simp [FullDate.render], rfl⟩

theorem mem_rMinute {g : Groups} {h : List Nat} {s : List Nat} {x : Groups × List Nat} (hh : IsDig D 2 h)
    (hx : x ∈ rMinute D { g with hour := some h } s) :
    ∃ c : Clock, c.WF D ∧ h ++ s = c.render ++ x.2 ∧ x.1 = c.put g := by
  unfold rMinute rSecond rFrac at hx
  simp only [List.mem_append, List.mem_flatMap, List.mem_map, mem_rOptDigits, mem_rLit, List.mem_singleton] at hx
  rcases hx with ⟨m, ⟨b, h1, h2⟩, (⟨z, ⟨b', h3, h4⟩, (⟨t, h5, f, h6, rfl⟩ | rfl)⟩ | rfl)⟩ | rfl
  · obtain ⟨k1, k2, k3⟩ := mem_rMany D h6
    rcases h5 with h5 | h5
    · exact ⟨.frac h b m.1 b' z.1 false f.1, ⟨hh, h1, h3, k1, k2⟩, by rw [h2, h4, h5, k3]; simp [Clock.render], rfl⟩
    · exact ⟨.frac h b m.1 b' z.1 true f.1, ⟨hh, h1, h3, k1, k2⟩, by rw [h2, h4, h5, k3]; simp [Clock.render], rfl⟩
  · exact ⟨.hms h b m.1 b' z.1, ⟨hh, h1, h3⟩, by rw [h2, h4]; simp [Clock.render], rfl⟩
  · exact ⟨.hm h b m.1, ⟨hh, h1⟩, by rw [h2]; simp [Clock.render], rfl⟩
  · exact ⟨.hh h, hh, by simp [Clock.render], rfl⟩

theorem mem_rZone {g : Groups} {s : List Nat} {x : Groups × List Nat} (hx : x ∈ rZone D g s) :
    ∃ z : Zone, z.WF D ∧ s = z.render ++ x.2 ∧ x.1 = z.put g := by
  unfold rZone rTzHour at hx
  simp only [List.mem_append, List.mem_flatMap, List.mem_map, mem_rOptDigits, mem_rLit, mem_rDigits,
    List.mem_singleton] at hx
  rcases hx with (⟨r, h1, rfl⟩ | ⟨h, hh, ht⟩) | rfl
  · exact ⟨.zulu, trivial, by rw [h1]; simp [Zone.render], rfl⟩
  · have key : ∃ neg, h.1.1 = neg ∧ IsDig D 2 h.1.2 ∧ s = [if neg then 45 else 43] ++ h.1.2 ++ h.2 := by
      rcases hh with ⟨r, h1, y, ⟨h2, h3⟩, rfl⟩ | ⟨r, h1, y, ⟨h2, h3⟩, rfl⟩
      · exact ⟨false, rfl, h2, by rw [h1, h3]; simp⟩
      · exact ⟨true, rfl, h2, by rw [h1, h3]; simp⟩
    obtain ⟨neg, k1, k2, k3⟩ := key
    obtain ⟨⟨n, hd⟩, r⟩ := h
    simp only at k1 k2 k3
    subst k1
    rcases ht with ⟨m, ⟨b, h1, h2⟩, rfl⟩ | rfl
    · exact ⟨.hourMin n hd b m.1, ⟨k2, h1⟩, by rw [k3]; simp only at h2; rw [h2]; simp [Zone.render], rfl⟩
    · exact ⟨.hour n hd, k2, by rw [k3]; simp [Zone.render], rfl⟩
  · exact ⟨.unstated, trivial, rfl, rfl⟩

theorem mem_rRest {g : Groups} {s : List Nat} {x : Groups × List Nat} (hx : x ∈ rRest D g s) :
    ∃ r : Rest, r.WF D ∧ s = r.render ++ x.2 ∧ x.1 = r.put g := by
  unfold rRest rTime at hx
  simp only [List.mem_append, List.mem_flatMap, List.mem_map, mem_rOptDigits, mem_rWeek, mem_rLit, mem_rDigits,
    List.mem_cons, List.not_mem_nil, or_false] at hx
  rcases hx with ((⟨m, ⟨b, h1, h2⟩, rfl⟩ | ⟨m, ⟨b, h1, h2⟩, rfl⟩) | ⟨y, hy, ht⟩) | (rfl | rfl)
  · exact ⟨.month b m.1, h1, by rw [h2]; simp [Rest.render], rfl⟩
  · exact ⟨.week b m.1, h1, by rw [h2]; simp [Rest.render], rfl⟩
  · obtain ⟨fd, k1, k2, k3⟩ := mem_rDay D hy
    rcases ht with ⟨r, h1, h, ⟨h2, h3⟩, w, h4, h5⟩ | rfl
    · rw [k3] at h4
      obtain ⟨c, c1, c2, c3⟩ := mem_rMinute D (g := fd.put g) h2 h4
      obtain ⟨z, z1, z2, z3⟩ := mem_rZone D h5
      refine ⟨.time fd c z, ⟨k1, c1, z1⟩, ?_, ?_⟩
      · rw [k2, h1, h3, c2, z2]; simp [Rest.render]
      · rw [z3, c3]; rfl
    · exact ⟨.day fd, k1, by rw [k2]; simp [Rest.render], k3⟩
  · exact ⟨.nothing, trivial, by simp [Rest.render], rfl⟩
  · exact ⟨.nothing, trivial, by simp [Rest.render], rfl⟩

/-- What the end of the pattern accepts: nothing, or a newline. -/
def endOf (nl : Bool) : List Nat := if nl then [10] else []

theorem atEnd_iff {s : List Nat} : atEnd s = true ↔ ∃ nl, s = endOf nl := by
  unfold atEnd endOf
  simp only [Bool.or_eq_true, beq_iff_eq]
  constructor
  · rintro (h | h)
    · exact ⟨false, by simpa using h⟩
    · exact ⟨true, by simpa using h⟩
  · rintro ⟨b, h⟩
    cases b <;> simp_all

theorem matchIso_sound {s : List Nat} {g : Groups} (h : matchIso D s = some g) :
    ∃ (i : Iso) (nl : Bool), i.WF D ∧ s = i.render ++ endOf nl ∧ g = i.groups := by
  unfold matchIso at h
  obtain ⟨x, hx, rfl⟩ := Option.map_eq_some_iff.1 h
  have he := List.find?_some hx
  have hm := List.mem_of_find?_eq_some hx
  obtain ⟨y, hy, hr⟩ := List.mem_flatMap.1 hm
  obtain ⟨y1, y2⟩ := (mem_rDigits D).1 hy
  obtain ⟨r, r1, r2, r3⟩ := mem_rRest D hr
  obtain ⟨nl, hn⟩ := atEnd_iff.1 he
  exact ⟨⟨y.1, r⟩, nl, ⟨y1, r1⟩, by rw [y2, r2, hn]; simp [Iso.render], r3⟩

/-! ## Everything in the grammar is matched, as it should be -/

theorem is_ascii {c : Nat} (h : c < 128) (h' : ¬ (48 ≤ c ∧ c ≤ 57)) : D.is c = false := by
  unfold Digits.is; rw [D.ascii c h, if_neg h']; rfl

/-- The string does not begin with a digit. -/
def NoDig (s : List Nat) : Prop := ∀ c r, s = c :: r → D.is c = false

theorem rDigits_hit {n : Nat} {a : List Nat} (h : IsDig D n a) (r : List Nat) : rDigits D n (a ++ r) = [(a, r)] := by
  unfold rDigits
  rw [show (a ++ r).take n = a by rw [← h.1]; simp, show (a ++ r).drop n = r by rw [← h.1]; simp,
    if_pos ⟨h.1, List.all_eq_true.2 h.2⟩]

theorem rDigits_miss {n : Nat} {s : List Nat} (hn : 0 < n) (h : NoDig D s) : rDigits D n s = [] := by
  unfold rDigits
  cases s with
  | nil => rw [if_neg]; simp; omega
  | cons c r =>
    have := h c r rfl
    cases n with
    | zero => omega
    | succ n => rw [if_neg]; simp [this]

theorem dig_ne {c k : Nat} (h : D.is c = true) (hk : D.is k = false) : c ≠ k := by
  intro he; subst he; rw [h] at hk; cases hk

theorem rLit_miss {k : Nat} {s : List Nat} (h : ∀ c r, s = c :: r → c ≠ k) : rLit k s = [] := by
  cases s with
  | nil => rfl
  | cons c r => simp only [rLit]; rw [if_neg (h c r rfl)]

theorem rLit_hit (k : Nat) (r : List Nat) : rLit k (k :: r) = [r] := by simp [rLit]

/-- `c?\d{n}` on an optional delimiter and `n` digits. -/
theorem rOptDigits_hit {k n : Nat} (hk : D.is k = false) (hn : 0 < n) {a : List Nat} (h : IsDig D n a) (b : Bool)
    (r : List Nat) : rOptDigits D k n (sep k b ++ a ++ r) = [(a, r)] := by
  unfold rOptDigits rOpt
  cases b
  · have : rLit k (a ++ r) = [] := by
      apply rLit_miss
      intro c t he
      cases a with
      | nil => have := h.1; simp at this; omega
      | cons x a =>
        simp only [List.cons_append, List.cons.injEq] at he
        rw [← he.1]; exact dig_ne D (h.2 x (by simp)) hk
    simp [sep, this, rDigits_hit D h]
  · have : rDigits D n (k :: (a ++ r)) = [] := rDigits_miss D hn (by
      intro c t he; simp only [List.cons.injEq] at he; rw [← he.1]; exact hk)
    simp [sep, rLit_hit, rDigits_hit D h, this]

/-- …and on something that begins with neither. -/
theorem rOptDigits_miss {k n : Nat} (hn : 0 < n) {s : List Nat} (h : NoDig D s) (hk : ∀ c r, s = c :: r → c ≠ k) :
    rOptDigits D k n s = [] := by
  unfold rOptDigits rOpt
  rw [rLit_miss hk]
  simp [rDigits_miss D hn h]

theorem rWeek_hit {w : List Nat} (h : IsDig D 2 w) (b : Bool) (r : List Nat) :
    rWeek D (sep 45 b ++ [87] ++ w ++ r) = [(w, r)] := by
  unfold rWeek rOpt
  cases b
  · have : rLit 45 (87 :: (w ++ r)) = [] := rLit_miss (by intro c t he; simp only [List.cons.injEq] at he; omega)
    simp [sep, this, rLit_hit, rDigits_hit D h]
  · have : rLit 87 (45 :: 87 :: (w ++ r)) = [] := rLit_miss (by intro c t he; simp only [List.cons.injEq] at he; omega)
    simp [sep, this, rLit_hit, rDigits_hit D h]

theorem rWeek_miss {s : List Nat} (h : ∀ c r, s = c :: r → c ≠ 45 ∧ c ≠ 87) : rWeek D s = [] := by
  unfold rWeek rOpt
  rw [rLit_miss (fun c r e => (h c r e).1)]
  simp [rLit_miss (fun c r e => (h c r e).2)]

/-- digits after an optional dash are not a week -/
theorem rWeek_digits {n : Nat} (hn : 0 < n) {a : List Nat} (h : IsDig D n a) (b : Bool) (r : List Nat) :
    rWeek D (sep 45 b ++ a ++ r) = [] := by
  obtain ⟨x, a, rfl⟩ : ∃ x t, a = x :: t := by
    cases a with
    | nil => have := h.1; simp at this; omega
    | cons x t => exact ⟨x, t, rfl⟩
  have hx := h.2 x (by simp)
  have n1 : x ≠ 45 := dig_ne D hx (is_ascii D (by omega) (by omega))
  have n2 : x ≠ 87 := dig_ne D hx (is_ascii D (by omega) (by omega))
  unfold rWeek rOpt
  cases b <;> simp [sep, rLit, n1, n2]

/-- a week is not digits after an optional dash -/
theorem rOptDigits_week {n : Nat} (hn : 0 < n) (b : Bool) (r : List Nat) :
    rOptDigits D 45 n (sep 45 b ++ [87] ++ r) = [] := by
  have h87 : NoDig D (87 :: r) := by
    intro c t he; simp only [List.cons.injEq] at he; rw [← he.1]; exact is_ascii D (by omega) (by omega)
  have h45 : NoDig D (45 :: 87 :: r) := by
    intro c t he; simp only [List.cons.injEq] at he; rw [← he.1]; exact is_ascii D (by omega) (by omega)
  unfold rOptDigits rOpt
  cases b <;> simp [sep, rLit, rDigits_miss D hn h87, rDigits_miss D hn h45]

theorem flatMap_head {α β : Type} {l l' : List α} {a : α} {f : α → List β} {b : β} {m : List β} (h : l = a :: l')
    (h' : f a = b :: m) : ∃ k, l.flatMap f = b :: k := ⟨_, by rw [h, List.flatMap_cons, h', List.cons_append]⟩

theorem append_head {α : Type} {l m : List α} {a : α} (h : ∃ k, l = a :: k) : ∃ k, l ++ m = a :: k := by
  obtain ⟨k, rfl⟩ := h; exact ⟨_, List.cons_append⟩

/-- The three ways to write a day, each found first. -/
theorem rDay_head (g : Groups) (fd : FullDate) (h : fd.WF D) (r : List Nat) (hr : NoDig D r) :
    ∃ k, rDay D g (fd.render ++ r) = (fd.put g, r) :: k := by
  have d45 : D.is 45 = false := is_ascii D (by omega) (by omega)
  unfold rDay
  cases fd with
  | ymd b m b' d =>
    obtain ⟨h1, h2⟩ := h
    have e1 := rOptDigits_hit D d45 (by omega) h1 b (sep 45 b' ++ d ++ r)
    have e2 := rOptDigits_hit D d45 (by omega) h2 b' r
    have es : (FullDate.ymd b m b' d).render ++ r = sep 45 b ++ m ++ (sep 45 b' ++ d ++ r) := by simp [FullDate.render]
    rw [es, e1]
    apply append_head; apply append_head
    simp only [List.flatMap_cons, List.flatMap_nil, List.append_nil, e2, List.map_cons, List.map_nil]
    exact ⟨_, rfl⟩
  | ywd b w b' d =>
    obtain ⟨h1, h2⟩ := h
    have e0 := rOptDigits_week D (n := 2) (by omega) b (w ++ (sep 45 b' ++ d ++ r))
    have e1 := rWeek_hit D h1 b (sep 45 b' ++ d ++ r)
    have e2 := rOptDigits_hit D d45 (by omega) h2 b' r
    have es : (FullDate.ywd b w b' d).render ++ r = sep 45 b ++ [87] ++ w ++ (sep 45 b' ++ d ++ r) := by
      simp [FullDate.render]
    have es' : (FullDate.ywd b w b' d).render ++ r = sep 45 b ++ [87] ++ (w ++ (sep 45 b' ++ d ++ r)) := by
      simp [FullDate.render]
    apply append_head
    rw [show rOptDigits D 45 2 ((FullDate.ywd b w b' d).render ++ r) = [] by rw [es', e0],
      show rWeek D ((FullDate.ywd b w b' d).render ++ r) = [(w, sep 45 b' ++ d ++ r)] by rw [es, e1]]
    simp only [List.flatMap_nil, List.nil_append, List.flatMap_cons, List.append_nil, e2, List.map_cons, List.map_nil]
    exact ⟨_, rfl⟩
  | yd b n =>
    have h1 : IsDig D 3 n := h
    obtain ⟨x, y, z, rfl⟩ : ∃ x y z, n = [x, y, z] := by
      obtain ⟨hl, -⟩ := h1
      match n, hl with
      | [x, y, z], _ => exact ⟨x, y, z, rfl⟩
    have hz : D.is z = true := h1.2 z (by simp)
    have e0 := rOptDigits_hit D d45 (n := 2) (by omega) (a := [x, y]) ⟨rfl, fun c hc => h1.2 c (by simp at hc ⊢; tauto)⟩ b (z :: r)
    have e1 := rOptDigits_hit D d45 (by omega) h1 b r
    have e2 : rOptDigits D 45 2 (z :: r) = [] := by
      unfold rOptDigits rOpt
      have : rLit 45 (z :: r) = [] := rLit_miss (by
        intro c t he; simp only [List.cons.injEq] at he; rw [← he.1]; exact dig_ne D hz d45)
      rw [this]
      simp only [List.nil_append, List.flatMap_cons, List.flatMap_nil, List.append_nil]
      unfold rDigits
      rw [if_neg]
      cases r with
      | nil => simp
      | cons c r => simp [hr c r rfl]
    have e3 := rWeek_digits D (by omega) h1 b r
    have es : (FullDate.yd b [x, y, z]).render ++ r = sep 45 b ++ [x, y, z] ++ r := rfl
    have es' : (FullDate.yd b [x, y, z]).render ++ r = sep 45 b ++ [x, y] ++ (z :: r) := by simp [FullDate.render]
    rw [show rOptDigits D 45 2 ((FullDate.yd b [x, y, z]).render ++ r) = [([x, y], z :: r)] by rw [es', e0],
      show rWeek D ((FullDate.yd b [x, y, z]).render ++ r) = [] by rw [es, e3],
      show rOptDigits D 45 3 ((FullDate.yd b [x, y, z]).render ++ r) = [([x, y, z], r)] by rw [es, e1]]
    simp only [List.flatMap_nil, List.nil_append, List.flatMap_cons, List.append_nil, e2, List.map_cons, List.map_nil]
    exact ⟨_, rfl⟩

/-- Something that may follow a clock: not a digit, colon, dot or comma. -/
def AfterClock (s : List Nat) : Prop := ∀ c r, s = c :: r → D.is c = false ∧ c ≠ 58 ∧ c ≠ 46 ∧ c ≠ 44

/-- The hours of a clock, and what follows them. -/
def Clock.hours : Clock → List Nat
  | .hh h => h
  | .hm h _ _ => h
  | .hms h _ _ _ _ => h
  | .frac h _ _ _ _ _ _ => h

def Clock.more : Clock → List Nat
  | .hh _ => []
  | .hm _ b m => sep 58 b ++ m
  | .hms _ b m b' s => sep 58 b ++ m ++ (sep 58 b' ++ s)
  | .frac _ b m b' s comma f => sep 58 b ++ m ++ (sep 58 b' ++ s ++ ([if comma then 44 else 46] ++ f))

theorem Clock.render_eq (c : Clock) : c.render = c.hours ++ c.more := by
  cases c <;> simp [Clock.render, Clock.hours, Clock.more]

theorem Clock.hours_wf {c : Clock} (h : c.WF D) : IsDig D 2 c.hours := by
  cases c <;> first | exact h | exact h.1

theorem takeWhile_dig {f r : List Nat} (hf : ∀ c ∈ f, D.is c = true) (hr : NoDig D r) :
    (f ++ r).takeWhile D.is = f := by
  rw [List.takeWhile_append_of_pos hf]
  cases r with
  | nil => simp
  | cons c r => simp [hr c r rfl]

theorem rMany_head {f r : List Nat} (hn : f ≠ []) (hf : ∀ c ∈ f, D.is c = true) (hr : NoDig D r) :
    ∃ k, rMany D (f ++ r) = (f, r) :: k := by
  unfold rMany
  rw [takeWhile_dig D hf hr]
  obtain ⟨n, hl⟩ : ∃ n, f.length = n + 1 := ⟨f.length - 1, by
    have := List.length_pos_iff.2 hn; omega⟩
  rw [hl, List.range_succ, List.reverse_append]
  simp only [List.reverse_cons, List.reverse_nil, List.nil_append, List.cons_append, List.map_cons]
  rw [← hl]
  simp only [List.take_left', List.drop_left']
  exact ⟨_, rfl⟩

theorem rMinute_head (g : Groups) (c : Clock) (h : c.WF D) (r : List Nat) (hr : AfterClock D r) :
    ∃ k, rMinute D { g with hour := some c.hours } (c.more ++ r) = (c.put g, r) :: k := by
  have d58 : D.is 58 = false := is_ascii D (by omega) (by omega)
  have nd : NoDig D r := fun c t e => (hr c t e).1
  have miss : rOptDigits D 58 2 r = [] := rOptDigits_miss D (by omega) nd (fun c t e => (hr c t e).2.1)
  have fmiss : ∀ g, rFrac D g r = [(g, r)] := by
    intro g
    unfold rFrac
    rw [rLit_miss (fun c t e => (hr c t e).2.2.1), rLit_miss (fun c t e => (hr c t e).2.2.2)]
    rfl
  unfold rMinute
  cases c with
  | hh h => simp only [Clock.more, List.nil_append, miss]; exact ⟨_, rfl⟩
  | hm h' b m =>
    obtain ⟨h1, h2⟩ := h
    simp only [Clock.more]
    rw [rOptDigits_hit D d58 (by omega) h2 b r]
    apply append_head
    unfold rSecond
    rw [List.flatMap_cons]
    simp only [miss]
    exact ⟨_, rfl⟩
  | hms h' b m b' s =>
    obtain ⟨h1, h2, h3⟩ := h
    simp only [Clock.more, List.append_assoc]
    rw [← List.append_assoc, rOptDigits_hit D d58 (by omega) h2 b _]
    apply append_head
    unfold rSecond
    rw [List.flatMap_cons]
    simp only
    rw [← List.append_assoc, rOptDigits_hit D d58 (by omega) h3 b' r]
    simp only [List.flatMap_cons, fmiss]
    exact ⟨_, rfl⟩
  | frac h' b m b' s comma f =>
    obtain ⟨h1, h2, h3, h4, h5⟩ := h
    simp only [Clock.more, List.append_assoc]
    rw [← List.append_assoc, rOptDigits_hit D d58 (by omega) h2 b _]
    apply append_head
    unfold rSecond
    rw [List.flatMap_cons]
    simp only
    rw [← List.append_assoc (sep 58 b'), rOptDigits_hit D d58 (by omega) h3 b' _]
    simp only [List.flatMap_cons]
    apply append_head; apply append_head; apply append_head
    unfold rFrac
    apply append_head
    obtain ⟨k, hk⟩ := rMany_head D h4 h5 nd
    cases comma
    · have : rLit 44 (46 :: (f ++ r)) = [] := rLit_miss (by intro c t he; simp only [List.cons.injEq] at he; omega)
      simp only [Bool.false_eq_true, if_false, List.cons_append, List.nil_append, rLit_hit, this, List.append_nil,
        List.flatMap_cons, List.flatMap_nil, hk, List.map_cons]
      exact ⟨_, rfl⟩
    · have : rLit 46 (44 :: (f ++ r)) = [] := rLit_miss (by intro c t he; simp only [List.cons.injEq] at he; omega)
      simp only [if_true, List.cons_append, List.nil_append, rLit_hit, this, List.append_nil,
        List.flatMap_cons, List.flatMap_nil, hk, List.map_cons]
      exact ⟨_, rfl⟩

theorem endOf_cons {nl : Bool} {c : Nat} {r : List Nat} (h : endOf nl = c :: r) : c = 10 := by
  cases nl <;> simp [endOf] at h; exact h.1.symm

theorem rZone_head (g : Groups) (z : Zone) (h : z.WF D) (nl : Bool) :
    ∃ k, rZone D g (z.render ++ endOf nl) = (z.put g, endOf nl) :: k := by
  have d58 : D.is 58 = false := is_ascii D (by omega) (by omega)
  have d10 : D.is 10 = false := is_ascii D (by omega) (by omega)
  have nd : NoDig D (endOf nl) := fun c t e => by rw [endOf_cons e]; exact d10
  have lmiss : ∀ k, k ≠ 10 → rLit k (endOf nl) = [] := fun k hk =>
    rLit_miss (fun c t e => by rw [endOf_cons e]; omega)
  have miss : rOptDigits D 58 2 (endOf nl) = [] :=
    rOptDigits_miss D (by omega) nd (fun c t e => by rw [endOf_cons e]; omega)
  unfold rZone rTzHour
  cases z with
  | unstated =>
    simp only [Zone.render, List.nil_append, lmiss 90 (by omega), lmiss 43 (by omega), lmiss 45 (by omega),
      List.map_nil, List.flatMap_nil]
    exact ⟨_, rfl⟩
  | zulu =>
    simp only [Zone.render, List.cons_append, List.nil_append, rLit_hit, List.map_cons]
    exact ⟨_, rfl⟩
  | hour neg h' =>
    have h' := h
    simp only [Zone.WF] at h'
    cases neg
    · simp only [Zone.render, Bool.false_eq_true, if_false, List.cons_append, List.nil_append, rLit_hit]
      simp only [rLit, show ¬ ((43 : Nat) = 90) by omega, show ¬ ((43 : Nat) = 45) by omega, if_false,
        List.map_nil, List.nil_append, List.flatMap_cons, List.flatMap_nil, List.append_nil,
        rDigits_hit D h', List.map_cons, miss]
      exact ⟨_, rfl⟩
    · simp only [Zone.render, if_true, List.cons_append, List.nil_append, rLit_hit]
      simp only [rLit, show ¬ ((45 : Nat) = 90) by omega, show ¬ ((45 : Nat) = 43) by omega, if_false,
        List.map_nil, List.nil_append, List.flatMap_cons, List.flatMap_nil, List.append_nil,
        rDigits_hit D h', List.map_cons, miss]
      exact ⟨_, rfl⟩
  | hourMin neg h' b m =>
    obtain ⟨h1, h2⟩ := h
    have e := rOptDigits_hit D d58 (by omega) h2 b (endOf nl)
    cases neg
    · simp only [Zone.render, Bool.false_eq_true, if_false, List.cons_append, List.nil_append, rLit_hit, List.append_assoc]
      simp only [rLit, show ¬ ((43 : Nat) = 90) by omega, show ¬ ((43 : Nat) = 45) by omega, if_false,
        List.map_nil, List.nil_append, List.flatMap_cons, List.flatMap_nil, List.append_nil,
        rDigits_hit D h1, List.map_cons]
      rw [← List.append_assoc (sep 58 b), e]
      exact ⟨_, rfl⟩
    · simp only [Zone.render, if_true, List.cons_append, List.nil_append, rLit_hit, List.append_assoc]
      simp only [rLit, show ¬ ((45 : Nat) = 90) by omega, show ¬ ((45 : Nat) = 43) by omega, if_false,
        List.map_nil, List.nil_append, List.flatMap_cons, List.flatMap_nil, List.append_nil,
        rDigits_hit D h1, List.map_cons]
      rw [← List.append_assoc (sep 58 b), e]
      exact ⟨_, rfl⟩

theorem Zone.after (z : Zone) (nl : Bool) : AfterClock D (z.render ++ endOf nl) := by
  intro c r he
  have key : c = 10 ∨ c = 90 ∨ c = 43 ∨ c = 45 := by
    cases z with
    | unstated => left; exact endOf_cons (nl := nl) (by simpa [Zone.render] using he)
    | zulu => simp [Zone.render] at he; omega
    | hour neg h => cases neg <;> simp [Zone.render] at he <;> omega
    | hourMin neg h b m => cases neg <;> simp [Zone.render] at he <;> omega
  refine ⟨is_ascii D (by omega) (by omega), by omega, by omega, by omega⟩

/-- Months and weeks found too early leave something over. -/
theorem early (fd : FullDate) (h : fd.WF D) (r : List Nat) :
    (∀ x ∈ rOptDigits D 45 2 (fd.render ++ r), atEnd x.2 = false) ∧
    (∀ x ∈ rWeek D (fd.render ++ r), atEnd x.2 = false) := by
  have d45 : D.is 45 = false := is_ascii D (by omega) (by omega)
  have dend : ∀ {c : Nat} {t : List Nat}, D.is c = true → atEnd (c :: t) = false := by
    intro c t hc
    have : c ≠ 10 := dig_ne D hc (is_ascii D (by omega) (by omega))
    simp [atEnd, this]
  cases fd with
  | ymd b m b' d =>
    obtain ⟨h1, h2⟩ := h
    have e1 := rOptDigits_hit D d45 (by omega) h1 b (sep 45 b' ++ d ++ r)
    have e2 := rWeek_digits D (by omega) h1 b (sep 45 b' ++ d ++ r)
    have es : (FullDate.ymd b m b' d).render ++ r = sep 45 b ++ m ++ (sep 45 b' ++ d ++ r) := by simp [FullDate.render]
    rw [es, e1, e2]
    refine ⟨?_, by simp⟩
    intro x hx
    simp only [List.mem_singleton] at hx
    subst hx
    obtain ⟨x, t, rfl⟩ : ∃ x t, d = x :: t := by
      cases d with
      | nil => have := h2.1; simp at this
      | cons x t => exact ⟨x, t, rfl⟩
    cases b'
    · exact dend (h2.2 x (by simp))
    · simp [sep, atEnd]
  | ywd b w b' d =>
    obtain ⟨h1, h2⟩ := h
    have e0 := rOptDigits_week D (n := 2) (by omega) b (w ++ (sep 45 b' ++ d ++ r))
    have e1 := rWeek_hit D h1 b (sep 45 b' ++ d ++ r)
    have es : (FullDate.ywd b w b' d).render ++ r = sep 45 b ++ [87] ++ w ++ (sep 45 b' ++ d ++ r) := by
      simp [FullDate.render]
    have es' : (FullDate.ywd b w b' d).render ++ r = sep 45 b ++ [87] ++ (w ++ (sep 45 b' ++ d ++ r)) := by
      simp [FullDate.render]
    constructor
    · rw [es', e0]; simp
    · rw [es, e1]
      intro x hx
      simp only [List.mem_singleton] at hx
      subst hx
      obtain ⟨x, t, rfl⟩ : ∃ x t, d = x :: t := by
        cases d with
        | nil => have := h2.1; simp at this
        | cons x t => exact ⟨x, t, rfl⟩
      cases b'
      · exact dend (h2.2 x (by simp))
      · simp [sep, atEnd]
  | yd b n =>
    have h1 : IsDig D 3 n := h
    obtain ⟨x, y, z, rfl⟩ : ∃ x y z, n = [x, y, z] := by
      obtain ⟨hl, -⟩ := h1
      match n, hl with
      | [x, y, z], _ => exact ⟨x, y, z, rfl⟩
    have e0 := rOptDigits_hit D d45 (n := 2) (by omega) (a := [x, y]) ⟨rfl, fun c hc => h1.2 c (by simp at hc ⊢; tauto)⟩ b (z :: r)
    have e3 := rWeek_digits D (by omega) h1 b r
    have es : (FullDate.yd b [x, y, z]).render ++ r = sep 45 b ++ [x, y, z] ++ r := rfl
    have es' : (FullDate.yd b [x, y, z]).render ++ r = sep 45 b ++ [x, y] ++ (z :: r) := by simp [FullDate.render]
    constructor
    · rw [es', e0]
      intro w hw
      simp only [List.mem_singleton] at hw
      subst hw
      exact dend (h1.2 z (by simp))
    · rw [es, e3]; simp

theorem find_append_none {α : Type} {p : α → Bool} {l m : List α} (h : ∀ x ∈ l, p x = false) :
    (l ++ m).find? p = m.find? p := by
  rw [List.find?_append, List.find?_eq_none.2 (by intro x hx; rw [h x hx]; simp)]; rfl

theorem find_head {α : Type} {p : α → Bool} {l : List α} {a : α} (h : ∃ k, l = a :: k) (hp : p a = true)
    (m : List α) : (l ++ m).find? p = some a := by
  obtain ⟨k, rfl⟩ := h; simp [hp]

theorem matchIso_complete (i : Iso) (h : i.WF D) (nl : Bool) : matchIso D (i.render ++ endOf nl) = some i.groups := by
  obtain ⟨y, rest⟩ := i
  obtain ⟨hy, hr⟩ := h
  have d45 : D.is 45 = false := is_ascii D (by omega) (by omega)
  have d10 : D.is 10 = false := is_ascii D (by omega) (by omega)
  have d84 : D.is 84 = false := is_ascii D (by omega) (by omega)
  have nd : NoDig D (endOf nl) := fun c t e => by rw [endOf_cons e]; exact d10
  have hend : atEnd (endOf nl) = true := atEnd_iff.2 ⟨nl, rfl⟩
  have e : Iso.render ⟨y, rest⟩ ++ endOf nl = y ++ (rest.render ++ endOf nl) := by simp [Iso.render]
  unfold matchIso
  rw [e, rDigits_hit D hy]
  simp only [List.flatMap_cons, List.flatMap_nil, List.append_nil]
  suffices hs : (rRest D { year := y } (rest.render ++ endOf nl)).find? (fun r => atEnd r.2) =
      some (rest.put { year := y }, endOf nl) by
    rw [hs]; rfl
  unfold rRest
  have lmiss : ∀ k, k ≠ 10 → rLit k (endOf nl) = [] := fun k hk =>
    rLit_miss (fun c t e => by rw [endOf_cons e]; omega)
  have dayCase : ∀ (fd : FullDate) (r : List Nat), fd.WF D → NoDig D r → ∀ a,
      (∃ k, rTime D (fd.put { year := y }) r = a :: k) → atEnd a.2 = true →
      ((rOptDigits D 45 2 (fd.render ++ r)).map (fun m : List Nat × List Nat => (({ year := y, month1 := some m.1 } : Groups), m.2)) ++
        ((rWeek D (fd.render ++ r)).map fun w : List Nat × List Nat => (({ year := y, week1 := some w.1 } : Groups), w.2)) ++
        ((rDay D { year := y } (fd.render ++ r)).flatMap fun x : Groups × List Nat => rTime D x.1 x.2) ++
        [(({ year := y } : Groups), fd.render ++ r), (({ year := y } : Groups), fd.render ++ r)]).find? (fun r => atEnd r.2) = some a := by
    intro fd r hf hnd a ha hae
    obtain ⟨p1, p2⟩ := early D fd hf r
    rw [List.append_assoc, List.append_assoc, find_append_none, find_append_none]
    · obtain ⟨k, hk⟩ := rDay_head D { year := y } fd hf r hnd
      obtain ⟨k', hk'⟩ := ha
      exact find_head (p := fun r : Groups × List Nat => atEnd r.2) (flatMap_head hk hk') hae _
    · intro x hx
      obtain ⟨w, hw, rfl⟩ := List.mem_map.1 hx
      exact p2 w hw
    · intro x hx
      obtain ⟨w, hw, rfl⟩ := List.mem_map.1 hx
      exact p1 w hw
  cases rest with
  | nothing =>
    have m1 : ∀ n, 0 < n → rOptDigits D 45 n (endOf nl) = [] := fun n hn =>
      rOptDigits_miss D hn nd (fun c t e => by rw [endOf_cons e]; omega)
    have m2 : rWeek D (endOf nl) = [] := rWeek_miss D (fun c t e => by rw [endOf_cons e]; omega)
    have m3 : rDay D { year := y } (endOf nl) = [] := by
      unfold rDay; rw [m1 2 (by omega), m1 3 (by omega), m2]; rfl
    simp only [Rest.render, List.nil_append, m1 2 (by omega), m2, m3, List.map_nil, List.flatMap_nil]
    simp [hend, Rest.put]
  | month b m =>
    have e1 := rOptDigits_hit D d45 (by omega) hr b (endOf nl)
    simp only [Rest.render]
    rw [e1, List.append_assoc, List.append_assoc]
    exact find_head (p := fun r : Groups × List Nat => atEnd r.2) (a := (_, endOf nl)) ⟨_, rfl⟩ hend _
  | week b w =>
    have e0 := rOptDigits_week D (n := 2) (by omega) b (w ++ endOf nl)
    have e1 := rWeek_hit D hr b (endOf nl)
    simp only [Rest.render]
    rw [show rOptDigits D 45 2 (sep 45 b ++ [87] ++ w ++ endOf nl) = [] by rw [← e0]; simp, e1,
      List.map_nil, List.nil_append, List.append_assoc]
    exact find_head (p := fun r : Groups × List Nat => atEnd r.2) (a := (_, endOf nl)) ⟨_, rfl⟩ hend _
  | day fd =>
    refine dayCase fd (endOf nl) hr nd (fd.put { year := y }, endOf nl) ⟨[], ?_⟩ hend
    unfold rTime
    rw [lmiss 84 (by omega)]
    rfl
  | time fd c z =>
    obtain ⟨hf, hc, hz⟩ := hr
    have es : (Rest.time fd c z).render ++ endOf nl = fd.render ++ (84 :: (c.render ++ (z.render ++ endOf nl))) := by
      simp [Rest.render]
    rw [es]
    refine dayCase fd _ hf (fun x t e => by rw [List.cons.injEq] at e; rw [← e.1]; exact d84) (z.put (c.put (fd.put { year := y })), endOf nl) ?_ hend
    unfold rTime
    apply append_head
    rw [rLit_hit, c.render_eq, List.append_assoc]
    simp only [List.flatMap_cons, List.flatMap_nil, List.append_nil]
    rw [rDigits_hit D (c.hours_wf D hc)]
    simp only [List.flatMap_cons, List.flatMap_nil, List.append_nil]
    obtain ⟨k, hk⟩ := rMinute_head D (fd.put { year := y }) c hc (z.render ++ endOf nl) (z.after D nl)
    obtain ⟨k', hk'⟩ := rZone_head D (c.put (fd.put { year := y })) z hz nl
    exact flatMap_head hk hk'

end

end Verif.Extime
