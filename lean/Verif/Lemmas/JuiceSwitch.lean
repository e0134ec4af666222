import Verif.Spec.JuiceSwitch
import Mathlib.Data.List.Basic
/-!
# Invariants of protocol switching
-/
namespace Verif.JuiceSwitch
open Verif.Py

def Item.isInner : Item → Bool
  | .inner _ => true
  | _ => false

/-- After such an item only inner bytes may follow. -/
def Item.ends : Item → Bool
  | .inner _ => true
  | .ask _ sw => sw
  | .answer _ sw => sw
  | _ => false

def askOf : Item → Option (Nat × Bool)
  | .ask t sw => some (t, sw)
  | _ => none

def repOf : Item → Option (Nat × Bool)
  | .answer t sw => some (t, sw)
  | .error t sw => some (t, sw)
  | _ => none

def pendOf : Option Nat × Bool → Option (Nat × Bool)
  | (some t, sw) => some (t, sw)
  | (none, _) => none

/-- The requests of the writer of `c` that have not been settled. -/
def flight (c e : List Item) (pending : List (Option Nat × Bool)) : List (Nat × Bool) :=
  c.filterMap askOf ++ (pending.filterMap pendOf ++ e.filterMap repOf)

/-- What holds between `p`, which has written `c`, and `q`, which has written `e`. -/
structure Dir (p q : Side) (c e : List Item) : Prop where
  wf : ∀ d, p.outstanding = some d → Dict.WF d
  nodup : ((flight c e q.pending).map Prod.fst).Nodup
  known : ∀ d, p.outstanding = some d → ∀ x ∈ flight c e q.pending, Dict.get? d x.1 = some x.2
  one : ∀ d t t', p.outstanding = some d → Dict.get? d t = some true → Dict.get? d t' = some true → t = t'
  lock : ∀ d t, p.outstanding = some d → Dict.get? d t = some true → p.locked = true
  fresh : ∀ d t b, p.outstanding = some d → Dict.get? d t = some b → t ≤ p.counter
  order : c.Pairwise fun x y => x.ends = true → y.isInner = true
  clean : q.inner = true → ∀ x ∈ c, x.isInner = true
  before : p.inner = false → (∀ x ∈ c, x.isInner = false) ∧ p.wrote = []
  shut : q.inner = true → p.locked = true ∨ p.inner = true
  askTrue : ∀ t, .ask t true ∈ c → p.locked = true ∧ p.inner = false
  ansEnds : ∀ t, .answer t true ∈ c → p.inner = true
  pendTrue : ∀ t, (some t, true) ∈ q.pending → p.locked = true ∧ p.inner = false ∧ c = []
  ansTrue : ∀ t, .answer t true ∈ e → p.locked = true
  told : p.inner = true → q.inner = true ∨ q.outstanding = none ∨ ∃ t, .answer t true ∈ c
  ungarbled : q.garbled = []
  stream : q.got ++ c.filter Item.isInner = p.wrote.map .inner

def Both (p q : Side) (c e : List Item) : Prop := Dir p q c e ∧ Dir q p e c

theorem Both.symm {p q : Side} {c e : List Item} (h : Both p q c e) : Both q p e c := ⟨h.2, h.1⟩

def Inv (w : World) : Prop := ∀ s, Dir (w.side s) (w.side (!s)) (w.chan s) (w.chan (!s))

theorem Inv.both {w : World} (h : Inv w) (s : Bool) : Both (w.side s) (w.side (!s)) (w.chan s) (w.chan (!s)) :=
  ⟨h s, by simpa using h (!s)⟩

theorem inv_of_both {w : World} (s : Bool) (h : Both (w.side s) (w.side (!s)) (w.chan s) (w.chan (!s))) : Inv w := by
  intro b
  by_cases hb : b = s
  · subst hb; exact h.1
  · have : b = !s := by cases b <;> cases s <;> simp_all
    subst this
    simpa using h.2

@[simp] theorem setSide_same (w : World) (s : Bool) (x : Side) : (w.setSide s x).side s = x := by simp [World.setSide]
@[simp] theorem setSide_not (w : World) (s : Bool) (x : Side) : (w.setSide s x).side (!s) = w.side (!s) := by simp [World.setSide]
@[simp] theorem setSide_chan (w : World) (s : Bool) (x : Side) : (w.setSide s x).chan = w.chan := rfl
@[simp] theorem setChan_same (w : World) (s : Bool) (x : List Item) : (w.setChan s x).chan s = x := by simp [World.setChan]
@[simp] theorem setChan_not (w : World) (s : Bool) (x : List Item) : (w.setChan s x).chan (!s) = w.chan (!s) := by simp [World.setChan]
@[simp] theorem setChan_side (w : World) (s : Bool) (x : List Item) : (w.setChan s x).side = w.side := rfl
@[simp] theorem setChan_not_same (w : World) (s : Bool) (x : List Item) : (w.setChan (!s) x).chan s = w.chan s := by simp [World.setChan]

theorem inv_new : Inv World.new := by
  intro s
  simp only [World.new]
  constructor <;> simp (config := { contextual := true }) [Side.new, flight, Dict.get?]
  all_goals first | exact Dict.WF.nil | (intro d; rintro rfl; simp [Dict.get?])

theorem flight_ask (c e : List Item) (pd : List (Option Nat × Bool)) (t : Nat) (b : Bool) :
    (flight (c ++ [.ask t b]) e pd).Perm ((t, b) :: flight c e pd) := by
  unfold flight
  rw [List.filterMap_append, List.append_assoc]
  exact List.perm_middle

theorem flight_other (c e : List Item) (pd : List (Option Nat × Bool)) (it : Item) (h : askOf it = none) :
    flight (c ++ [it]) e pd = flight c e pd := by
  simp [flight, List.filterMap_append, h]

theorem flight_other' (c e : List Item) (pd : List (Option Nat × Bool)) (it : Item) (h : repOf it = none) :
    flight c (e ++ [it]) pd = flight c e pd := by
  simp [flight, List.filterMap_append, h]

theorem snoc_order {c : List Item} {it : Item} (h : c.Pairwise fun x y => x.ends = true → y.isInner = true)
    (hc : it.isInner = true ∨ ∀ x ∈ c, x.ends = false) :
    (c ++ [it]).Pairwise fun x y => x.ends = true → y.isInner = true := by
  rw [List.pairwise_append]
  refine ⟨h, by simp, ?_⟩
  intro x hx y hy hxe
  rw [List.mem_singleton] at hy; subst hy
  rcases hc with hc | hc
  · exact hc
  · rw [hc x hx] at hxe; cases hxe

/-- Nothing in `c` ends the juice traffic while its writer is neither locked nor switched. -/
theorem Dir.open {p q : Side} {c e : List Item} (h : Dir p q c e) (hl : p.locked = false) (hi : p.inner = false) :
    ∀ x ∈ c, x.ends = false := by
  intro x hx
  cases hb : x.ends with
  | false => rfl
  | true =>
    cases x with
    | inner b => have := (h.before hi).1 _ hx; cases this
    | ask t sw =>
      have : sw = true := hb
      subst this
      rw [(h.askTrue t hx).1] at hl; cases hl
    | answer t sw =>
      have : sw = true := hb
      subst this
      rw [h.ansEnds t hx] at hi; cases hi
    | tell => cases hb
    | error => cases hb

theorem perm_nodup {l l' : List (Nat × Bool)} (h : l.Perm l') : (l.map Prod.fst).Nodup ↔ (l'.map Prod.fst).Nodup :=
  (h.map _).nodup_iff

/-- `p` sends a request. -/
theorem both_ask {p q : Side} {c e : List Item} (h : Both p q c e) {d : Dict Nat Bool} (hd : p.outstanding = some d)
    (hl : p.locked = false) (hi : p.inner = false) (sw : Bool) :
    Both { p with counter := p.counter + 1, outstanding := some (Dict.set d (p.counter + 1) sw), locked := sw } q
      (c ++ [.ask (p.counter + 1) sw]) e := by
  have hnew : ∀ x ∈ flight c e q.pending, x.1 ≠ p.counter + 1 := by
    intro x hx e1
    have := h.1.fresh d x.1 x.2 hd (h.1.known d hd x hx)
    omega
  have hq : q.inner = false := by
    cases hb : q.inner with
    | false => rfl
    | true => rcases h.1.shut hb with h1 | h1 <;> simp_all
  have hno : ∀ t, Dict.get? d t ≠ some true := fun t ht => by rw [h.1.lock d t hd ht] at hl; cases hl
  have hp := flight_ask c e q.pending (p.counter + 1) sw
  refine ⟨{ wf := by rintro _ ⟨⟩; exact (h.1.wf d hd).set _ _, nodup := ?_, known := ?_, one := ?_, lock := ?_, fresh := ?_, order := ?_, clean := ?_, before := ?_, shut := ?_,
            askTrue := ?_, ansEnds := ?_, pendTrue := ?_, ansTrue := ?_, told := ?_, ungarbled := h.1.ungarbled, stream := ?_ },
          { wf := h.2.wf, nodup := ?_, known := ?_, one := h.2.one, lock := h.2.lock, fresh := h.2.fresh, order := h.2.order,
            clean := h.2.clean, before := h.2.before, shut := ?_, askTrue := h.2.askTrue, ansEnds := h.2.ansEnds,
            pendTrue := h.2.pendTrue, ansTrue := ?_, told := ?_, ungarbled := h.2.ungarbled, stream := h.2.stream }⟩
  · rw [perm_nodup hp, List.map_cons, List.nodup_cons]
    refine ⟨?_, h.1.nodup⟩
    intro hm
    obtain ⟨x, hx, e1⟩ := List.mem_map.1 hm
    exact hnew x hx e1
  · rintro d' ⟨⟩ x hx
    rcases List.mem_cons.1 (hp.mem_iff.1 hx) with rfl | hx
    · rw [Dict.get?_set_same]
    · rw [Dict.get?_set_other _ _ _ _ (fun e1 => hnew x hx e1.symm)]; exact h.1.known d hd x hx
  · rintro d' t t' ⟨⟩ h1 h2
    rw [Dict.get?_set] at h1 h2
    split at h1
    · split at h2
      · omega
      · exact absurd h2 (hno _)
    · exact absurd h1 (hno _)
  · rintro d' t ⟨⟩ h1
    rw [Dict.get?_set] at h1
    split at h1
    · simpa using h1
    · exact absurd h1 (hno _)
  · rintro d' t b ⟨⟩ h1
    rw [Dict.get?_set] at h1
    split at h1
    · simp only; omega
    · have := h.1.fresh d t b hd h1; simp only; omega
  · exact snoc_order h.1.order (.inr (h.1.open hl hi))
  · intro hb; rw [hq] at hb; cases hb
  · intro _
    refine ⟨?_, (h.1.before hi).2⟩
    intro x hx
    rcases List.mem_append.1 hx with hx | hx
    · exact (h.1.before hi).1 x hx
    · rw [List.mem_singleton] at hx; subst hx; rfl
  · intro hb; rw [hq] at hb; cases hb
  · intro t ht
    rcases List.mem_append.1 ht with ht | ht
    · rw [(h.1.askTrue t ht).1] at hl; cases hl
    · rw [List.mem_singleton] at ht; cases ht; exact ⟨rfl, hi⟩
  · intro t ht
    rcases List.mem_append.1 ht with ht | ht
    · exact h.1.ansEnds t ht
    · rw [List.mem_singleton] at ht; cases ht
  · intro t ht
    have := (h.1.pendTrue t ht).1
    rw [hl] at this; cases this
  · intro t ht
    have := h.1.ansTrue t ht
    rw [hl] at this; cases this
  · intro hb; simp only at hb; rw [hi] at hb; cases hb
  · rw [List.filter_append]; simpa [Item.isInner] using h.1.stream
  · rw [flight_other' _ _ _ _ rfl]; exact h.2.nodup
  · intro d' hd' x hx
    rw [flight_other' _ _ _ _ rfl] at hx
    exact h.2.known d' hd' x hx
  · intro hb; simp only at hb; rw [hi] at hb; cases hb
  · intro t ht
    rcases List.mem_append.1 ht with ht | ht
    · exact h.2.ansTrue t ht
    · rw [List.mem_singleton] at ht; cases ht
  · intro hb; rw [hq] at hb; cases hb

/-- Only some of the fields matter. -/
theorem Both.congr {p q p' : Side} {c e : List Item} (h : Both p q c e) (h1 : p'.counter = p.counter)
    (h2 : p'.outstanding = p.outstanding) (h3 : p'.locked = p.locked) (h4 : p'.inner = p.inner) (h5 : p'.pending = p.pending)
    (h6 : p'.wrote = p.wrote) (h7 : p'.got = p.got) (h8 : p'.garbled = p.garbled) : Both p' q c e := by
  obtain ⟨a1, a2, a3, a4, a5, a6, a7, a8, a9, a10, a11⟩ := p
  obtain ⟨b1, b2, b3, b4, b5, b6, b7, b8, b9, b10, b11⟩ := p'
  simp only at h1 h2 h3 h4 h5 h6 h7 h8
  subst h1 h2 h3 h4 h5 h6 h7 h8
  exact ⟨{ h.1 with }, { h.2 with }⟩

/-- `p` registers a request that is not sent. -/
theorem both_register {p q : Side} {c e : List Item} (h : Both p q c e) {d : Dict Nat Bool} (hd : p.outstanding = some d) :
    Both { p with counter := p.counter + 1, outstanding := some (Dict.set d (p.counter + 1) false) } q c e := by
  have hnew : ∀ x ∈ flight c e q.pending, x.1 ≠ p.counter + 1 := by
    intro x hx e1
    have := h.1.fresh d x.1 x.2 hd (h.1.known d hd x hx)
    omega
  have hold : ∀ t, Dict.get? (Dict.set d (p.counter + 1) false) t = some true → Dict.get? d t = some true := by
    intro t ht
    rw [Dict.get?_set] at ht
    split at ht
    · simp at ht
    · exact ht
  refine ⟨{ h.1 with wf := by rintro _ ⟨⟩; exact (h.1.wf d hd).set _ _, known := ?_, one := ?_, lock := ?_, fresh := ?_ }, { h.2 with told := ?_ }⟩
  · rintro d' ⟨⟩ x hx
    rw [Dict.get?_set_other _ _ _ _ (fun e1 => hnew x hx e1.symm)]; exact h.1.known d hd x hx
  · rintro d' t t' ⟨⟩ h1 h2
    exact h.1.one d t t' hd (hold t h1) (hold t' h2)
  · rintro d' t ⟨⟩ h1
    exact h.1.lock d t hd (hold t h1)
  · rintro d' t b ⟨⟩ h1
    rw [Dict.get?_set] at h1
    split at h1
    · simp only; omega
    · have := h.1.fresh d t b hd h1; simp only; omega
  · intro hb
    rcases h.2.told hb with h1 | h1 | h1
    · exact .inl h1
    · rw [hd] at h1; cases h1
    · exact .inr (.inr h1)

theorem both_count {p q : Side} {c e : List Item} (h : Both p q c e) :
    Both { p with counter := p.counter + 1 } q c e := by
  refine ⟨{ h.1 with fresh := ?_ }, { h.2 with }⟩
  intro d t b hd hb
  have := h.1.fresh d t b hd hb
  simp only; omega

/-- `p` sends a command without `_ask`. -/
theorem both_tell {p q : Side} {c e : List Item} (h : Both p q c e) (hl : p.locked = false) (hi : p.inner = false) :
    Both p q (c ++ [.tell]) e := by
  have hq : q.inner = false := by
    cases hb : q.inner with
    | false => rfl
    | true => rcases h.1.shut hb with h1 | h1 <;> simp_all
  have hm : ∀ {x : Item}, x ∈ c ++ [.tell] → x ≠ .tell → x ∈ c := by
    intro x hx hne
    rcases List.mem_append.1 hx with hx | hx
    · exact hx
    · exact absurd (List.mem_singleton.1 hx) hne
  refine ⟨{ h.1 with nodup := ?_, known := ?_, order := ?_, clean := ?_, before := ?_, askTrue := ?_, ansEnds := ?_,
                     pendTrue := ?_, told := ?_, stream := ?_ },
          { h.2 with nodup := ?_, known := ?_, ansTrue := ?_ }⟩
  · rw [flight_other _ _ _ _ rfl]; exact h.1.nodup
  · rw [flight_other _ _ _ _ rfl]; exact h.1.known
  · exact snoc_order h.1.order (.inr (h.1.open hl hi))
  · intro hb; rw [hq] at hb; cases hb
  · intro _
    refine ⟨?_, (h.1.before hi).2⟩
    intro x hx
    rcases List.mem_append.1 hx with hx | hx
    · exact (h.1.before hi).1 x hx
    · rw [List.mem_singleton] at hx; subst hx; rfl
  · exact fun t ht => h.1.askTrue t (hm ht (by simp))
  · exact fun t ht => h.1.ansEnds t (hm ht (by simp))
  · intro t ht
    have := (h.1.pendTrue t ht).1
    rw [hl] at this; cases this
  · intro hb; rw [hi] at hb; cases hb
  · rw [List.filter_append]; simpa [Item.isInner] using h.1.stream
  · rw [flight_other' _ _ _ _ rfl]; exact h.2.nodup
  · rw [flight_other' _ _ _ _ rfl]; exact h.2.known
  · exact fun t ht => h.2.ansTrue t (hm ht (by simp))

/-- `p` loses the connection. -/
theorem both_lose {p q : Side} {c e : List Item} (h : Both p q c e) : Both { p with outstanding := none } q c e := by
  refine ⟨{ h.1 with wf := ?_, known := ?_, one := ?_, lock := ?_, fresh := ?_ }, { h.2 with told := ?_ }⟩
  all_goals first | (intros; contradiction) | skip
  exact fun _ => .inr (.inl rfl)

/-- `p`'s inner protocol writes. -/
theorem both_write {p q : Side} {c e : List Item} (h : Both p q c e) (hi : p.inner = true) (b : Nat) :
    Both { p with wrote := p.wrote ++ [b] } q (c ++ [.inner b]) e := by
  have hm : ∀ {x : Item}, x ∈ c ++ [.inner b] → x ≠ .inner b → x ∈ c := by
    intro x hx hne
    rcases List.mem_append.1 hx with hx | hx
    · exact hx
    · exact absurd (List.mem_singleton.1 hx) hne
  refine ⟨{ h.1 with nodup := ?_, known := ?_, order := ?_, clean := ?_, before := ?_, askTrue := ?_, ansEnds := ?_,
                     pendTrue := ?_, told := ?_, stream := ?_ },
          { h.2 with nodup := ?_, known := ?_, ansTrue := ?_ }⟩
  · rw [flight_other _ _ _ _ rfl]; exact h.1.nodup
  · rw [flight_other _ _ _ _ rfl]; exact h.1.known
  · exact snoc_order h.1.order (.inl rfl)
  · intro hb x hx
    rcases List.mem_append.1 hx with hx | hx
    · exact h.1.clean hb x hx
    · rw [List.mem_singleton] at hx; subst hx; rfl
  · intro hb; simp only at hb; rw [hi] at hb; cases hb
  · exact fun t ht => h.1.askTrue t (hm ht (by simp))
  · exact fun t ht => h.1.ansEnds t (hm ht (by simp))
  · intro t ht
    have := (h.1.pendTrue t ht).2.1
    rw [hi] at this; cases this
  · intro hb
    rcases h.1.told hb with h1 | h1 | ⟨t, h1⟩
    · exact .inl h1
    · exact .inr (.inl h1)
    · exact .inr (.inr ⟨t, List.mem_append_left _ h1⟩)
  · rw [List.filter_append, ← List.append_assoc, h.1.stream]; simp [Item.isInner]
  · rw [flight_other' _ _ _ _ rfl]; exact h.2.nodup
  · rw [flight_other' _ _ _ _ rfl]; exact h.2.known
  · exact fun t ht => h.2.ansTrue t (hm ht (by simp))

theorem filterMap_eraseIdx_perm {α β : Type} (f : α → Option β) : ∀ (l : List α) (i : Nat) (x : α), l[i]? = some x →
    (l.filterMap f).Perm ((f x).toList ++ (l.eraseIdx i).filterMap f)
  | [], i, x, h => by simp at h
  | y :: l, 0, x, h => by
    simp only [List.getElem?_cons_zero, Option.some.injEq] at h; subst h
    simp only [List.eraseIdx_cons_zero, List.filterMap_cons]
    cases f y <;> simp
  | y :: l, i + 1, x, h => by
    simp only [List.getElem?_cons_succ] at h
    have ih := filterMap_eraseIdx_perm f l i x h
    simp only [List.eraseIdx_cons_succ, List.filterMap_cons]
    cases f y with
    | none => exact ih
    | some z => exact (ih.cons z).trans List.perm_middle.symm

/-- Dropping something from what is in flight. -/
theorem Dir.shrink {p q q' : Side} {c c' e e' : List Item} (h : Dir p q c e)
    {m : List (Nat × Bool)} (hm : (flight c e q.pending).Perm (m ++ flight c' e' q'.pending)) :
    ((flight c' e' q'.pending).map Prod.fst).Nodup ∧
      (∀ d, p.outstanding = some d → ∀ x ∈ flight c' e' q'.pending, Dict.get? d x.1 = some x.2) := by
  constructor
  · have := (perm_nodup hm).1 h.nodup
    rw [List.map_append, List.nodup_append] at this
    exact this.2.1
  · intro d hd x hx
    exact h.known d hd x (hm.mem_iff.2 (List.mem_append_right _ hx))

/-- The peer receives the first item of `c`. -/
theorem Dir.tail {p q : Side} {it : Item} {c e : List Item} (h : Dir p q (it :: c) e) (hi : it.isInner = false)
    (ha : q.inner = true ∨ ∀ t, it ≠ .answer t true) : Dir p q c e := by
  have hf : (flight (it :: c) e q.pending).Perm ((askOf it).toList ++ flight c e q.pending) := by
    unfold flight
    rw [List.filterMap_cons]
    cases askOf it <;> simp
  refine { h with nodup := (h.shrink hf).1, known := (h.shrink hf).2, order := ?_, clean := ?_, before := ?_, askTrue := ?_,
                  ansEnds := ?_, pendTrue := ?_, told := ?_, stream := ?_ }
  · exact (List.pairwise_cons.1 h.order).2
  · exact fun hb x hx => h.clean hb x (List.mem_cons_of_mem _ hx)
  · exact fun hb => ⟨fun x hx => (h.before hb).1 x (List.mem_cons_of_mem _ hx), (h.before hb).2⟩
  · exact fun t ht => h.askTrue t (List.mem_cons_of_mem _ ht)
  · exact fun t ht => h.ansEnds t (List.mem_cons_of_mem _ ht)
  · intro t ht
    have := (h.pendTrue t ht).2.2
    cases this
  · intro hb
    rcases h.told hb with h1 | h1 | ⟨t, h1⟩
    · exact .inl h1
    · exact .inr (.inl h1)
    · rcases List.mem_cons.1 h1 with h1 | h1
      · rcases ha with ha | ha
        · exact .inl ha
        · exact absurd h1.symm (ha t)
      · exact .inr (.inr ⟨t, h1⟩)
  · have := h.stream
    rw [List.filter_cons, hi] at this
    exact this

/-- `p` receives something that settles none of its requests. -/
theorem Dir.tail' {p q : Side} {it : Item} {c e : List Item} (h : Dir p q c (it :: e)) (hr : repOf it = none) : Dir p q c e := by
  have hf : flight c (it :: e) q.pending = flight c e q.pending := by simp [flight, List.filterMap_cons, hr]
  refine { h with nodup := hf ▸ h.nodup, known := hf ▸ h.known, ansTrue := ?_ }
  exact fun t ht => h.ansTrue t (List.mem_cons_of_mem _ ht)

/-- A handler of `p` ends and nothing is sent. -/
theorem both_forget {p q : Side} {c e : List Item} (h : Both p q c e) (i : Nat) :
    Both { p with pending := p.pending.eraseIdx i } q c e := by
  have hsub : ∀ x ∈ p.pending.eraseIdx i, x ∈ p.pending := fun x hx => List.mem_of_mem_eraseIdx hx
  have hf : ∃ m, (flight e c p.pending).Perm (m ++ flight e c (p.pending.eraseIdx i)) := by
    cases hi : p.pending[i]? with
    | none =>
      rw [List.getElem?_eq_none_iff] at hi
      exact ⟨[], by rw [List.eraseIdx_of_length_le hi]; exact List.Perm.refl _⟩
    | some x =>
      refine ⟨(pendOf x).toList, ?_⟩
      have := filterMap_eraseIdx_perm pendOf p.pending i x hi
      unfold flight
      refine ((this.append_right _).append_left _).trans ?_
      rw [List.append_assoc]
      exact List.perm_append_comm_assoc _ _ _
  obtain ⟨m, hm⟩ := hf
  have := h.2.shrink (q' := { p with pending := p.pending.eraseIdx i }) hm
  exact ⟨{ h.1 with }, { h.2 with nodup := this.1, known := this.2, pendTrue := fun t ht => h.2.pendTrue t (hsub _ ht) }⟩

theorem erase_sub {d : Dict Nat Bool} (hw : Dict.WF d) {t t' : Nat} {b : Bool} (h : Dict.get? (Dict.erase d t) t' = some b) :
    t' ≠ t ∧ Dict.get? d t' = some b := by
  by_cases e1 : t' = t
  · subst e1; rw [Dict.get?_erase_same hw] at h; cases h
  · exact ⟨e1, by rw [Dict.get?_erase_other _ _ _ (Ne.symm e1)] at h; exact h⟩

theorem perm_to_front {α : Type} (a : α) (x y z : List α) : (x ++ (y ++ a :: z)).Perm (a :: (x ++ (y ++ z))) := by
  rw [← List.append_assoc, ← List.append_assoc]; exact List.perm_middle

/-- `p` receives a reply. -/
theorem Dir.settle {p q : Side} {c e : List Item} {it : Item} {t : Nat} {sw : Bool} (h : Dir p q c (it :: e))
    (hr : repOf it = some (t, sw)) {d : Dict Nat Bool} (hd : p.outstanding = some d) :
    Dict.get? d t = some sw ∧ (∀ x ∈ flight c e q.pending, x.1 ≠ t) ∧
      Dir { p with outstanding := some (Dict.erase d t) } q c e := by
  have hf : (flight c (it :: e) q.pending).Perm ((t, sw) :: flight c e q.pending) := by
    unfold flight
    rw [List.filterMap_cons, hr]
    exact perm_to_front _ _ _ _
  have hw := h.wf d hd
  have hn := (perm_nodup hf).1 h.nodup
  rw [List.map_cons, List.nodup_cons] at hn
  have hne : ∀ x ∈ flight c e q.pending, x.1 ≠ t := by
    intro x hx e1
    exact hn.1 (List.mem_map.2 ⟨x, hx, e1⟩)
  refine ⟨h.known d hd (t, sw) (hf.mem_iff.2 (List.mem_cons_self ..)), hne, ?_⟩
  refine { h with wf := ?_, nodup := hn.2, known := ?_, one := ?_, lock := ?_, fresh := ?_, ansTrue := ?_ }
  · rintro _ ⟨⟩; exact hw.erase t
  · rintro _ ⟨⟩ x hx
    rw [Dict.get?_erase_other _ _ _ (Ne.symm (hne x hx))]
    exact h.known d hd x (hf.mem_iff.2 (List.mem_cons_of_mem _ hx))
  · rintro _ t1 t2 ⟨⟩ h1 h2
    exact h.one d t1 t2 hd (erase_sub hw h1).2 (erase_sub hw h2).2
  · rintro _ t1 ⟨⟩ h1
    exact h.lock d t1 hd (erase_sub hw h1).2
  · rintro _ t1 b ⟨⟩ h1
    exact h.fresh d t1 b hd (erase_sub hw h1).2
  · exact fun t ht => h.ansTrue t (List.mem_cons_of_mem _ ht)

theorem mem_flight_ask {c e : List Item} {pd : List (Option Nat × Bool)} {t : Nat} {b : Bool} (h : Item.ask t b ∈ c) :
    (t, b) ∈ flight c e pd :=
  List.mem_append_left _ (List.mem_filterMap.2 ⟨_, h, rfl⟩)

theorem mem_flight_pend {c e : List Item} {pd : List (Option Nat × Bool)} {t : Nat} {b : Bool} (h : (some t, b) ∈ pd) :
    (t, b) ∈ flight c e pd :=
  List.mem_append_right _ (List.mem_append_left _ (List.mem_filterMap.2 ⟨_, h, rfl⟩))

theorem Both.quiet {p q : Side} {c e : List Item} (h : Both p q c e) (hl : p.locked = false) (hi : p.inner = false) :
    q.inner = false := by
  cases hb : q.inner with
  | false => rfl
  | true => rcases h.1.shut hb with h1 | h1 <;> simp_all

/-- The new outstanding requests do not matter to the peer. -/
theorem Dir.settled {p q : Side} {c e : List Item} (h : Dir q p e c) {d d' : Dict Nat Bool} (hd : p.outstanding = some d) :
    Dir q { p with outstanding := some d' } e c := by
  refine { h with told := ?_ }
  intro hb
  rcases h.told hb with h1 | h1 | h1
  · exact .inl h1
  · rw [hd] at h1; cases h1
  · exact .inr (.inr h1)

theorem both_receive {p q : Side} {c e : List Item} {it : Item} (h : Both p q c (it :: e)) {d : Dict Nat Bool}
    (hd : p.outstanding = some d) : Both (receive p d it) q c e := by
  unfold receive
  by_cases hp : p.inner = true
  · have hin := h.2.clean hp it (List.mem_cons_self ..)
    have ha : askOf it = none := by cases it <;> first | rfl | cases hin
    have hr : repOf it = none := by cases it <;> first | rfl | cases hin
    have hf : flight (it :: e) c p.pending = flight e c p.pending := by simp [flight, List.filterMap_cons, ha]
    rw [if_pos hp]
    refine ⟨{ h.1.tail' hr with }, { h.2 with nodup := hf ▸ h.2.nodup, known := hf ▸ h.2.known, order := ?_, clean := ?_, before := ?_, askTrue := ?_, ansEnds := ?_, pendTrue := ?_, told := ?_, stream := ?_ }⟩
    · exact (List.pairwise_cons.1 h.2.order).2
    · exact fun hb x hx => h.2.clean hb x (List.mem_cons_of_mem _ hx)
    · exact fun hb => ⟨fun x hx => (h.2.before hb).1 x (List.mem_cons_of_mem _ hx), (h.2.before hb).2⟩
    · exact fun t ht => h.2.askTrue t (List.mem_cons_of_mem _ ht)
    · exact fun t ht => h.2.ansEnds t (List.mem_cons_of_mem _ ht)
    · intro t ht
      have := (h.2.pendTrue t ht).2.2
      cases this
    · exact fun _ => .inl hp
    · have := h.2.stream
      rw [List.filter_cons, if_pos hin] at this
      simpa using this
  · rw [if_neg hp]
    have hp : p.inner = false := by simpa using hp
    cases it with
    | inner b =>
      exfalso
      cases hq : q.inner with
      | false => have := (h.2.before hq).1 _ (List.mem_cons_self ..); cases this
      | true =>
        rcases h.2.told hq with h1 | h1 | ⟨t, h1⟩
        · rw [hp] at h1; cases h1
        · rw [hd] at h1; cases h1
        · rcases List.mem_cons.1 h1 with h1 | h1
          · cases h1
          · have := (List.pairwise_cons.1 h.2.order).1 _ h1 rfl
            cases this
    | tell =>
      have h1 := h.1.tail' rfl
      have h2 := h.2.tail rfl (.inr (by simp))
      have hf : flight e c (p.pending ++ [(none, false)]) = flight e c p.pending := by
        have : ([(none, false)] : List (Option Nat × Bool)).filterMap pendOf = [] := rfl
        simp only [flight, List.filterMap_append, this, List.append_nil]
      refine ⟨{ h1 with }, { h2 with nodup := ?_, known := ?_, pendTrue := ?_ }⟩
      · rw [hf]; exact h2.nodup
      · rw [hf]; exact h2.known
      · intro t ht
        rcases List.mem_append.1 ht with ht | ht
        · exact h2.pendTrue t ht
        · simp at ht
    | ask t sw =>
      have h1 := h.1.tail' rfl
      have h2 := h.2.tail rfl (.inr (by simp))
      by_cases hl : p.locked = true
      · simp only [if_pos hl]; exact ⟨h1, h2⟩
      · simp only [if_neg hl]
        have hf : (flight (.ask t sw :: e) c p.pending).Perm ([] ++ flight e c (p.pending ++ [(some t, sw)])) := by
          simp only [flight, List.filterMap_cons, askOf, List.filterMap_append, List.nil_append, List.filterMap_nil, pendOf,
            List.append_assoc, List.singleton_append, List.cons_append]
          exact (perm_to_front _ _ _ _).symm
        have hs := h.2.shrink (q' := { p with pending := p.pending ++ [(some t, sw)] }) hf
        refine ⟨{ h1 with }, { h2 with nodup := hs.1, known := hs.2, pendTrue := ?_ }⟩
        intro t' ht
        rcases List.mem_append.1 ht with ht | ht
        · exact h2.pendTrue t' ht
        · have hx : t' = t ∧ true = sw := by simpa using ht
          obtain ⟨rfl, rfl⟩ := hx
          have ha := h.2.askTrue t' (List.mem_cons_self ..)
          refine ⟨ha.1, ha.2, ?_⟩
          cases e with
          | nil => rfl
          | cons y e =>
            exfalso
            have := (List.pairwise_cons.1 h.2.order).1 y (List.mem_cons_self ..) rfl
            rw [(h.2.before ha.2).1 y (by simp)] at this
            cases this
    | error t sw =>
      have h1 := h.1.settle rfl hd
      have h2 := (h.2.tail rfl (.inr (by simp))).settled (d' := Dict.erase d t) hd
      simp only [h1.1]
      cases sw with
      | false => exact ⟨h1.2.2, h2⟩
      | true => exact Both.congr ⟨h1.2.2, h2⟩ rfl rfl rfl rfl rfl rfl rfl rfl
    | answer t sw =>
      have h1 := h.1.settle rfl hd
      simp only [h1.1]
      cases sw with
      | false => exact ⟨h1.2.2, (h.2.tail rfl (.inr (by simp))).settled hd⟩
      | true =>
        have hq : q.inner = true := h.2.ansEnds t (List.mem_cons_self ..)
        have hno : (t, true) ∉ flight c e q.pending := fun hx => h1.2.1 _ hx rfl
        have hone : ∀ t', (t', true) ∈ flight c e q.pending → False := by
          intro t' ht'
          have := h1.2.2.known _ rfl _ ht'
          have := h.1.one d t' t hd (erase_sub (h.1.wf d hd) this).2 h1.1
          subst this
          exact hno ht'
        simp only [if_true, switchNow, hp, Bool.false_eq_true, if_false]
        refine ⟨{ h1.2.2 with before := ?_, shut := ?_, askTrue := ?_, ansEnds := ?_, pendTrue := ?_, told := ?_ }, ?_⟩
        · intro hb; cases hb
        · intro _; exact .inr rfl
        · exact fun t' ht => (hone t' (mem_flight_ask ht)).elim
        · exact fun _ _ => rfl
        · exact fun t' ht => (hone t' (mem_flight_pend ht)).elim
        · exact fun _ => .inl hq
        · have hf : flight (.answer t true :: e) c p.pending = flight e c p.pending := by simp [flight, List.filterMap_cons, askOf]
          refine { h.2 with nodup := hf ▸ h.2.nodup, known := hf ▸ h.2.known, order := ?_, clean := ?_, before := ?_,
                            shut := ?_, askTrue := ?_, ansEnds := ?_, pendTrue := ?_, told := ?_, stream := ?_ }
          · exact (List.pairwise_cons.1 h.2.order).2
          · exact fun _ x hx => (List.pairwise_cons.1 h.2.order).1 x hx rfl
          · intro hb; rw [hq] at hb; cases hb
          · exact fun _ => .inr hq
          · exact fun t ht => h.2.askTrue t (List.mem_cons_of_mem _ ht)
          · exact fun t ht => h.2.ansEnds t (List.mem_cons_of_mem _ ht)
          · intro t ht
            have := (h.2.pendTrue t ht).2.2
            cases this
          · exact fun _ => .inl rfl
          · have := h.2.stream
            rw [List.filter_cons] at this
            simpa [Item.isInner] using this

/-- `p` sends a reply. -/
theorem both_reply {p q : Side} {c e : List Item} (h : Both p q c e) {i t : Nat} {sw : Bool}
    (hx : p.pending[i]? = some (some t, sw)) (hl : p.locked = false) (hi : p.inner = false) (ok : Bool) :
    Both { p with pending := p.pending.eraseIdx i, inner := ok && sw } q (c ++ [if ok then .answer t sw else .error t sw]) e := by
  have hsub : ∀ x ∈ p.pending.eraseIdx i, x ∈ p.pending := fun x hx => List.mem_of_mem_eraseIdx hx
  have hmem : (some t, sw) ∈ p.pending := List.mem_of_getElem? hx
  have hq := h.quiet hl hi
  generalize hit : (if ok then Item.answer t sw else .error t sw) = it
  have hrep : repOf it = some (t, sw) := by subst hit; cases ok <;> rfl
  have hask : askOf it = none := by subst hit; cases ok <;> rfl
  have hinn : it.isInner = false := by subst hit; cases ok <;> rfl
  have hnask : ∀ t b, it ≠ .ask t b := by subst hit; cases ok <;> simp
  have hans : ∀ t', it = .answer t' true → ok = true ∧ sw = true ∧ t' = t := by subst hit; cases ok <;> simp (config := { contextual := true }) [eq_comm]
  have hm : ∀ {x : Item}, x ∈ c ++ [it] → x ∈ c ∨ x = it := by
    intro x hx
    rcases List.mem_append.1 hx with hx | hx
    · exact .inl hx
    · exact .inr (List.mem_singleton.1 hx)
  have hf : (flight e c p.pending).Perm ([] ++ flight e (c ++ [it]) (p.pending.eraseIdx i)) := by
    have := filterMap_eraseIdx_perm pendOf p.pending i _ hx
    simp only [flight, List.filterMap_append, List.nil_append, List.filterMap_cons, hrep, List.filterMap_nil]
    refine ((this.append_right _).append_left _).trans ?_
    simp only [pendOf, Option.toList, List.cons_append, List.nil_append, List.append_assoc]
    refine List.Perm.append_left _ ?_
    rw [← List.append_assoc]
    exact (List.perm_append_comm (l₁ := [(t, sw)])).trans (by simp)
  have hs := h.2.shrink (q' := { p with pending := p.pending.eraseIdx i, inner := ok && sw }) hf
  refine ⟨{ h.1 with nodup := ?_, known := ?_, order := ?_, clean := ?_, before := ?_, shut := ?_, askTrue := ?_, ansEnds := ?_,
                     pendTrue := ?_, told := ?_, stream := ?_ },
          { h.2 with nodup := hs.1, known := hs.2, clean := ?_, shut := ?_, pendTrue := ?_, ansTrue := ?_, told := ?_ }⟩
  · rw [flight_other _ _ _ _ hask]; exact h.1.nodup
  · rw [flight_other _ _ _ _ hask]; exact h.1.known
  · exact snoc_order h.1.order (.inr (h.1.open hl hi))
  · intro hb; rw [hq] at hb; cases hb
  · intro _
    refine ⟨?_, (h.1.before hi).2⟩
    intro x hx
    rcases hm hx with hx | hx
    · exact (h.1.before hi).1 x hx
    · rw [hx]; exact hinn
  · intro hb; rw [hq] at hb; cases hb
  · intro t' ht
    rcases hm ht with ht | ht
    · rw [(h.1.askTrue t' ht).1] at hl; cases hl
    · exact absurd ht.symm (hnask _ _)
  · intro t' ht
    rcases hm ht with ht | ht
    · have := h.1.ansEnds t' ht
      rw [hi] at this; cases this
    · obtain ⟨rfl, rfl, _⟩ := hans t' ht.symm; rfl
  · intro t' ht
    have := (h.1.pendTrue t' ht).1
    rw [hl] at this; cases this
  · intro hb
    have hb : ok = true ∧ sw = true := by simpa using hb
    obtain ⟨rfl, rfl⟩ := hb
    exact .inr (.inr ⟨t, by rw [← hit]; simp⟩)
  · rw [List.filter_append, List.filter_cons, hinn]; simpa using h.1.stream
  · intro hb
    have hb : ok = true ∧ sw = true := by simpa using hb
    obtain ⟨rfl, rfl⟩ := hb
    rw [(h.2.pendTrue t hmem).2.2]; simp
  · intro hb
    have hb : ok = true ∧ sw = true := by simpa using hb
    obtain ⟨rfl, rfl⟩ := hb
    exact .inl (h.2.pendTrue t hmem).1
  · exact fun t' ht => h.2.pendTrue t' (hsub _ ht)
  · intro t' ht
    rcases hm ht with ht | ht
    · exact h.2.ansTrue t' ht
    · obtain ⟨_, rfl, rfl⟩ := hans t' ht.symm
      exact (h.2.pendTrue _ hmem).1
  · intro hb; rw [hq] at hb; cases hb

theorem both_lock {p q : Side} {c e : List Item} (h : Both p q c e) : Both { p with locked := true } q c e := by
  refine ⟨{ h.1 with lock := fun _ _ _ _ => rfl, shut := fun _ => .inl rfl, askTrue := ?_, pendTrue := ?_, ansTrue := fun _ _ => rfl },
    { h.2 with }⟩
  · exact fun t ht => ⟨rfl, (h.1.askTrue t ht).2⟩
  · exact fun t ht => ⟨rfl, (h.1.pendTrue t ht).2⟩

theorem inv_step {w : World} (h : Inv w) (op : Op) (ho : Orderly w op) : Inv (step w op) := by
  cases op with
  | command s a =>
    have hb := h.both s
    have hi : (w.side s).inner = false := ho
    refine inv_of_both s ?_
    simp only [step, command]
    cases hd : (w.side s).outstanding with
    | none => simpa [hd] using hb
    | some d =>
      simp only
      by_cases hl : (w.side s).locked = true
      · cases a with
        | true =>
          simp only [if_true, hl, setSide_same, setSide_not, setSide_chan]
          exact (both_register hb hd).congr rfl rfl hl.symm rfl rfl rfl rfl rfl
        | false =>
          simp only [Bool.false_eq_true, if_false, hl, if_true, setSide_same, setSide_not, setSide_chan]
          exact (both_count hb).congr rfl hd.symm hl.symm rfl rfl rfl rfl rfl
      · have hl : (w.side s).locked = false := by simpa using hl
        cases a with
        | true =>
          simp only [if_true, hl, Bool.false_eq_true, if_false, setChan_side, setSide_same, setSide_not, setChan_same, setChan_not, setSide_chan]
          exact (both_ask hb hd hl hi false).congr rfl rfl rfl rfl rfl rfl rfl rfl
        | false =>
          simp only [hl, Bool.false_eq_true, if_false, setChan_side, setSide_same, setSide_not, setChan_same, setChan_not, setSide_chan]
          exact (both_count (both_tell hb hl hi)).congr rfl hd.symm hl.symm rfl rfl rfl rfl rfl
  | switch s =>
    have hb := h.both s
    have hi : (w.side s).inner = false := ho
    refine inv_of_both s ?_
    simp only [step, switchDo]
    cases hd : (w.side s).outstanding with
    | none =>
      simp only [setSide_same, setSide_not, setSide_chan]
      exact (both_lock hb).congr rfl hd.symm rfl rfl rfl rfl rfl rfl
    | some d =>
      simp only
      by_cases hl : (w.side s).locked = true
      · simp only [hl, if_true, setSide_same, setSide_not, setSide_chan]
        exact (both_register hb hd).congr rfl rfl hl.symm rfl rfl rfl rfl rfl
      · have hl : (w.side s).locked = false := by simpa using hl
        simp only [hl, Bool.false_eq_true, if_false, setChan_side, setSide_same, setSide_not, setChan_same, setChan_not, setSide_chan]
        exact both_ask hb hd hl hi true
  | deliver s =>
    have hb := h.both s
    refine inv_of_both s ?_
    simp only [step, deliver]
    cases hd : (w.side s).outstanding with
    | none => simpa [hd] using hb
    | some d =>
      cases hc : w.chan (!s) with
      | nil => simpa [hd, hc] using hb
      | cons it rest =>
        rw [hc] at hb
        simp only [setSide_same, setSide_not, setSide_chan, setChan_side, setChan_same, setChan_not_same]
        exact both_receive hb hd
  | respond s i r =>
    have hb := h.both s
    refine inv_of_both s ?_
    simp only [step, respond]
    cases hx : (w.side s).pending[i]? with
    | none => simpa [hx] using hb
    | some x =>
      obtain ⟨ask, sw⟩ := x
      cases ask with
      | none =>
        simp only [setSide_same, setSide_not, setSide_chan]
        refine (both_forget hb i).congr ?_ ?_ ?_ ?_ ?_ ?_ ?_ ?_ <;> split <;> rfl
      | some t =>
        have hi : (w.side s).inner = false := by
          rcases ho with ho | ho
          · exact ho
          · exact absurd hx (ho t sw)
        simp only
        cases hd : (w.side s).outstanding with
        | none =>
          simp only [setSide_same, setSide_not, setSide_chan]
          exact (both_forget hb i).congr rfl hd.symm rfl rfl rfl rfl rfl rfl
        | some d =>
          simp only
          by_cases hl : (w.side s).locked = true
          · simp only [hl, if_true, setSide_same, setSide_not, setSide_chan]
            exact (both_forget hb i).congr rfl hd.symm hl.symm rfl rfl rfl rfl rfl
          · have hl : (w.side s).locked = false := by simpa using hl
            simp only [hl, Bool.false_eq_true, if_false, hi, setChan_side, setSide_same, setSide_not, setChan_same, setChan_not, setSide_chan]
            cases r with
            | ok =>
              cases sw with
              | true => exact (both_reply hb hx hl hi true).congr rfl hd.symm hl.symm rfl rfl rfl rfl rfl
              | false => exact (both_reply hb hx hl hi true).congr rfl hd.symm hl.symm rfl rfl rfl rfl rfl
            | error => exact (both_reply hb hx hl hi false).congr rfl hd.symm hl.symm rfl rfl rfl rfl rfl
            | fatal => exact (both_reply hb hx hl hi false).congr rfl hd.symm hl.symm rfl rfl rfl rfl rfl
  | write s b =>
    have hb := h.both s
    refine inv_of_both s ?_
    simp only [step, innerWrite]
    split
    · rename_i hc
      simp only [setChan_side, setSide_same, setSide_not, setChan_same, setChan_not, setSide_chan]
      exact both_write hb hc.1 b
    · exact hb
  | lose s =>
    have hb := h.both s
    refine inv_of_both s ?_
    simp only [step, lose]
    cases hd : (w.side s).outstanding with
    | none => simpa [hd] using hb
    | some d =>
      simp only [setSide_same, setSide_not, setSide_chan]
      exact (both_lose hb).congr rfl rfl rfl rfl rfl rfl rfl rfl

theorem inv_run : ∀ (ops : List Op) {w : World}, Inv w → OrderlyRun w ops → Inv (run w ops)
  | [], _, h, _ => h
  | op :: ops, _, h, ho => inv_run ops (inv_step h op ho.1) ho.2

/-! ### Every started switch is accounted for -/

def trues (d : Dict Nat Bool) : Nat := (d.filter fun x => x.2).length

theorem trues_erase : ∀ (d : Dict Nat Bool) (t : Nat) (b : Bool), Dict.get? d t = some b →
    trues d = trues (Dict.erase d t) + (if b = true then 1 else 0)
  | [], t, b, h => by simp [Dict.get?] at h
  | (k, v) :: d, t, b, h => by
    by_cases e1 : k = t
    · subst e1
      have hv : v = b := by simpa [Dict.get?] using h
      subst hv
      cases v <;> simp [trues, Dict.erase]
    · have h' : Dict.get? d t = some b := by simpa [Dict.get?, e1] using h
      have ih := trues_erase d t b h'
      unfold trues at ih ⊢
      cases v <;> simp [Dict.erase, e1, ih]
      omega

theorem trues_set {d : Dict Nat Bool} {n : Nat} (h : Dict.get? d n = none) (b : Bool) :
    trues (Dict.set d n b) = trues d + (if b = true then 1 else 0) := by
  rw [Dict.set_of_not_mem b ((Dict.get?_eq_none_iff d n).1 h)]
  cases b <;> simp [trues]

def ledger (p : Side) : Nat := waiting p + p.failed + (if p.locked = true ∧ p.inner = true then 1 else 0)

theorem ledger_step (s : Bool) {w : World} (h : Inv w) (op : Op) (ho : Orderly w op) :
    ledger ((step w op).side s) = ledger (w.side s) + (if starts w s op then 1 else 0) := by
  have other : ∀ (b : Bool) (x : Side) (c : List Item), b ≠ s → ((w.setSide b x).setChan b c).side s = w.side s := by
    intro b x c hb; simp [World.setSide, World.setChan, Ne.symm hb]
  have hfresh : ∀ d, (w.side s).outstanding = some d → Dict.get? d ((w.side s).counter + 1) = none := by
    intro d hd
    cases hg : Dict.get? d ((w.side s).counter + 1) with
    | none => rfl
    | some b => have := (h s).fresh d _ b hd hg; omega
  cases op with
  | command b a =>
    have hst : starts w s (.command b a) = false := by simp [starts]
    rw [hst]
    by_cases hb : b = s
    · subst hb
      simp only [step, command]
      cases hd : (w.side b).outstanding with
      | none => simp
      | some d =>
        have := trues_set (hfresh d hd) false
        cases a <;> by_cases hl : (w.side b).locked = true <;> simp_all [ledger, waiting, trues]
    · have : (command w b a).side s = w.side s := by
        simp only [command]
        split
        · rfl
        · have hb' := Ne.symm hb
          cases a <;> by_cases hl : (w.side b).locked = true <;> simp [hl, World.setSide, World.setChan, hb']
      simp [step, this]
  | switch b =>
    by_cases hb : b = s
    · subst hb
      have hi : (w.side b).inner = false := ho
      simp only [step, switchDo, starts]
      cases hd : (w.side b).outstanding with
      | none => simp [ledger, waiting, hd, hi]
      | some d =>
        have h1 := trues_set (hfresh d hd) false
        have h2 := trues_set (hfresh d hd) true
        by_cases hl : (w.side b).locked = true <;> simp_all [ledger, waiting, trues]
        omega
    · have hst : starts w s (.switch b) = false := by simp [starts, hb]
      have : (switchDo w b).side s = w.side s := by
        have hb' := Ne.symm hb
        simp only [switchDo]
        split
        · simp [World.setSide, hb']
        · split <;> simp [World.setSide, World.setChan, hb']
      rw [hst]; simp [step, this]
  | deliver b =>
    have hst : starts w s (.deliver b) = false := by simp [starts]
    rw [hst]
    by_cases hb : b = s
    · subst hb
      simp only [step, deliver]
      split
      · rename_i d it rest hd hc
        simp only [setSide_same]
        unfold receive
        have hlock := fun t => (h b).lock d t hd
        by_cases hi : (w.side b).inner = true
        · simp [hi, ledger, waiting]
        · have hi : (w.side b).inner = false := by simpa using hi
          simp only [hi, Bool.false_eq_true, if_false]
          cases it with
          | inner b => simp [ledger, waiting, hi]
          | tell => simp [ledger, waiting, hi]
          | ask t sw => by_cases hl : (w.side b).locked = true <;> simp [ledger, waiting, hl, hi]
          | answer t sw =>
            simp only
            cases hg : Dict.get? d t with
            | none => simp [ledger, waiting, hi]
            | some v =>
              have ht := trues_erase d t v hg
              cases v with
              | true =>
                have hl := hlock t hg
                unfold trues at ht
                simp only [if_true] at ht
                simp [ledger, waiting, hd, hl, hi, switchNow, ht]
                try omega
              | false =>
                unfold trues at ht
                simp only [Bool.false_eq_true, if_false, Nat.add_zero] at ht
                simp [ledger, waiting, hd, hi, ht]
          | error t sw =>
            simp only
            cases hg : Dict.get? d t with
            | none => simp [ledger, waiting, hi]
            | some v =>
              have ht := trues_erase d t v hg
              cases v with
              | true =>
                have hl := hlock t hg
                unfold trues at ht
                simp only [if_true] at ht
                simp [ledger, waiting, hd, hl, hi, switchFailed, ht]
                try omega
              | false =>
                unfold trues at ht
                simp only [Bool.false_eq_true, if_false, Nat.add_zero] at ht
                simp [ledger, waiting, hd, hi, ht]
      · simp
    · have : (deliver w b).side s = w.side s := by
        have hb' := Ne.symm hb
        simp only [deliver]
        split <;> simp [World.setSide, World.setChan, hb']
      simp [step, this]
  | respond b i r =>
    have hst : starts w s (.respond b i r) = false := by simp [starts]
    rw [hst]
    by_cases hb : b = s
    · subst hb
      simp only [step, respond]
      cases hx : (w.side b).pending[i]? with
      | none => simp
      | some x =>
        obtain ⟨ask, sw⟩ := x
        cases ask with
        | none => cases r <;> simp [ledger, waiting]
        | some t =>
          have hi : (w.side b).inner = false := by
            rcases ho with ho | ho
            · exact ho
            · exact absurd hx (ho t sw)
          simp only
          cases hd : (w.side b).outstanding with
          | none => simp [ledger, waiting, hd]
          | some d =>
            by_cases hl : (w.side b).locked = true
            · simp [ledger, waiting, hd, hl]
            · cases r <;> cases sw <;> simp [ledger, waiting, hd, hl, hi]
    · have : (respond w b i r).side s = w.side s := by
        have hb' := Ne.symm hb
        simp only [respond]
        split
        · rfl
        · split
          · simp [World.setSide, hb']
          · split
            · simp [World.setSide, hb']
            · split <;> simp [World.setSide, World.setChan, hb']
      simp [step, this]
  | write b x =>
    have hst : starts w s (.write b x) = false := by simp [starts]
    rw [hst]
    by_cases hb : b = s
    · subst hb
      simp only [step, innerWrite]
      split <;> simp [ledger, waiting]
    · have : (innerWrite w b x).side s = w.side s := by
        have hb' := Ne.symm hb
        simp only [innerWrite]
        split <;> simp [World.setSide, World.setChan, hb']
      simp [step, this]
  | lose b =>
    have hst : starts w s (.lose b) = false := by simp [starts]
    rw [hst]
    by_cases hb : b = s
    · subst hb
      simp only [step, lose]
      cases hd : (w.side b).outstanding with
      | none => simp
      | some d => simp [ledger, waiting, hd]; omega
    · have : (lose w b).side s = w.side s := by
        have hb' := Ne.symm hb
        simp only [lose]
        split <;> simp [World.setSide, hb']
      simp [step, this]

theorem ledger_run (s : Bool) : ∀ (ops : List Op) {w : World}, Inv w → OrderlyRun w ops →
    ledger (w.side s) + started s w ops = ledger ((run w ops).side s)
  | [], _, _, _ => rfl
  | op :: ops, w, h, ho => by
    have := ledger_run s ops (inv_step h op ho.1) ho.2
    rw [ledger_step s h op ho.1] at this
    simp only [started, run, List.foldl_cons] at this ⊢
    omega

/-! ### A switch completes -/

theorem deliver_keeps (w : World) (s : Bool) (ha : ∀ b, (w.side b).outstanding ≠ none) :
    (∀ b, ((deliver w s).side b).outstanding ≠ none) ∧ (deliver w s).chan s = w.chan s ∧
      (deliver w s).chan (!s) = (w.chan (!s)).tail ∧ (deliver w s).side (!s) = w.side (!s) := by
  unfold deliver
  split
  · rename_i d it rest hd hc
    refine ⟨?_, by simp [World.setSide, World.setChan], by simp [hc], by simp⟩
    intro b
    by_cases hb : b = s
    · subst hb
      simp only [setSide_same]
      unfold receive switchNow switchFailed
      repeat' split
      all_goals simp_all
    · have : b = !s := by cases b <;> cases s <;> simp_all
      subst this; simpa using ha (!s)
  · rename_i hn
    refine ⟨ha, rfl, ?_, rfl⟩
    cases hd : (w.side s).outstanding with
    | none => exact absurd hd (ha s)
    | some d =>
      cases hc : w.chan (!s) with
      | nil => simp [hc]
      | cons it rest => exact (hn d it rest hd hc).elim

theorem orderly_append : ∀ (a : List Op) {w : World} {b : List Op}, OrderlyRun w a → OrderlyRun (run w a) b → OrderlyRun w (a ++ b)
  | [], _, _, _, h => h
  | _ :: a, _, _, h1, h2 => ⟨h1.1, orderly_append a h1.2 h2⟩

theorem deliver_all (s : Bool) : ∀ (n : Nat) (w : World), (w.chan (!s)).length = n → (∀ b, (w.side b).outstanding ≠ none) →
    let w' := run w (List.replicate n (.deliver s))
    OrderlyRun w (List.replicate n (.deliver s)) ∧ (∀ b, (w'.side b).outstanding ≠ none) ∧ w'.chan s = w.chan s ∧
      w'.chan (!s) = [] ∧ w'.side (!s) = w.side (!s)
  | 0, w, hn, ha => ⟨trivial, ha, rfl, List.length_eq_zero_iff.1 hn, rfl⟩
  | n + 1, w, hn, ha => by
    obtain ⟨h1, h2, h3, h4⟩ := deliver_keeps w s ha
    have ih := deliver_all s n (deliver w s) (by rw [h3]; simp [hn]) h1
    simp only [List.replicate_succ, run, List.foldl_cons, step] at ih ⊢
    refine ⟨⟨trivial, ih.1⟩, ih.2.1, ih.2.2.1.trans h2, ih.2.2.2.1, ih.2.2.2.2.trans h4⟩

/-- The request arrives. -/
theorem ask_arrives (s : Bool) (t : Nat) : ∀ (n : Nat) (w : World), Inv w → (w.chan (!s)).length = n →
    (∀ b, (w.side b).outstanding ≠ none) → (w.side s).locked = false → (w.side s).inner = false → (w.side (!s)).inner = false →
    (.ask t true ∈ w.chan (!s) ∨ (some t, true) ∈ (w.side s).pending) →
    let w' := run w (List.replicate n (.deliver s))
    (some t, true) ∈ (w'.side s).pending ∧ (w'.side s).locked = false ∧ (w'.side s).inner = false
  | 0, w, _, hn, _, hl, hi, _, hm => by
    rw [List.length_eq_zero_iff] at hn
    rw [hn] at hm
    exact ⟨by simpa [run] using hm, hl, hi⟩
  | n + 1, w, h, hn, ha, hl, hi, hj, hm => by
    obtain ⟨h1, h2, h3, h4⟩ := deliver_keeps w s ha
    have hinv : Inv (deliver w s) := inv_step h (.deliver s) trivial
    obtain ⟨d, hd⟩ : ∃ d, (w.side s).outstanding = some d := by
      cases hd : (w.side s).outstanding with
      | none => exact absurd hd (ha s)
      | some d => exact ⟨d, rfl⟩
    obtain ⟨it, rest, hc⟩ : ∃ it rest, w.chan (!s) = it :: rest := by
      cases hc : w.chan (!s) with
      | nil => rw [hc] at hn; cases hn
      | cons it rest => exact ⟨it, rest, rfl⟩
    have hside : (deliver w s).side s = receive (w.side s) d it := by simp [deliver, hd, hc]
    have hchan : (deliver w s).chan (!s) = rest := by rw [h3, hc]; rfl
    have hnans : ∀ t, it ≠ .answer t true := by
      intro t' e1
      have := (h (!s)).ansEnds t' (by rw [hc, e1]; exact List.mem_cons_self ..)
      rw [hj] at this; cases this
    have hrec : (receive (w.side s) d it).locked = false ∧ (receive (w.side s) d it).inner = false ∧
        (∀ x ∈ (w.side s).pending, x ∈ (receive (w.side s) d it).pending) ∧
        (it = .ask t true → (some t, true) ∈ (receive (w.side s) d it).pending) := by
      unfold receive
      rw [if_neg (by simp [hi])]
      cases it with
      | inner b => simp [hl, hi]
      | tell => simp (config := { contextual := true }) [hl, hi]
      | ask t' sw => simp (config := { contextual := true }) [hl, hi]
      | error t' sw =>
        cases hg : Dict.get? d t' with
        | none => simp [hg, hl, hi]
        | some v => cases v <;> simp [hg, hl, hi, switchFailed]
      | answer t' sw =>
        have hk : Dict.get? d t' = some sw := (h s).known d hd (t', sw) (by
          unfold flight
          refine List.mem_append_right _ (List.mem_append_right _ (List.mem_filterMap.2 ⟨.answer t' sw, ?_, rfl⟩))
          rw [hc]; exact List.mem_cons_self ..)
        cases sw with
        | true => exact absurd rfl (hnans t')
        | false => simp [hk, hl, hi]
    have hm' : .ask t true ∈ (deliver w s).chan (!s) ∨ (some t, true) ∈ ((deliver w s).side s).pending := by
      rw [hchan, hside]
      rcases hm with hm | hm
      · rw [hc] at hm
        rcases List.mem_cons.1 hm with hm | hm
        · exact .inr (hrec.2.2.2 hm.symm)
        · exact .inl hm
      · exact .inr (hrec.2.2.1 _ hm)
    have ih := ask_arrives s t n (deliver w s) hinv (by rw [h3]; simp [hn]) h1 (by rw [hside]; exact hrec.1)
      (by rw [hside]; exact hrec.2.1) (by rw [h4]; exact hj) hm'
    simpa [List.replicate_succ, run, step] using ih

theorem run_append (w : World) (a b : List Op) : run w (a ++ b) = run (run w a) b := List.foldl_append

theorem completes {w : World} (h : Inv w) (s : Bool) (t : Nat) (hc : .ask t true ∈ w.chan s) (hu : (w.side (!s)).locked = false)
    (ha : ∀ b, (w.side b).outstanding ≠ none) :
    ∃ n i m, let more := List.replicate n (.deliver (!s)) ++ .respond (!s) i .ok :: List.replicate m (.deliver s)
      OrderlyRun w more ∧ ((run w more).side s).inner = true ∧ ((run w more).side (!s)).inner = true := by
  have hi : (w.side s).inner = false := ((h s).askTrue t hc).2
  have hj : (w.side (!s)).inner = false := by
    cases hb : (w.side (!s)).inner with
    | false => rfl
    | true => have := (h s).clean hb _ hc; cases this
  have hd := deliver_all (!s) (w.chan s).length w (by simp) ha
  have hp := ask_arrives (!s) t (w.chan s).length w h (by simp) ha hu hj (by simpa using hi) (by simpa using Or.inl hc)
  obtain ⟨o1, a1, c1, c2, s1⟩ := hd
  obtain ⟨p1, p2, p3⟩ := hp
  have hinv1 := inv_run _ h o1
  revert o1 a1 c1 c2 s1 p1 p2 p3 hinv1
  generalize hw1 : run w (List.replicate (w.chan s).length (.deliver (!s))) = w1
  intro o1 a1 c1 c2 s1 p1 p2 p3 hinv1
  obtain ⟨i, hx⟩ := List.mem_iff_getElem?.1 p1
  have ho2 : Orderly w1 (.respond (!s) i .ok) := .inl p3
  have hinv2 := inv_step hinv1 _ ho2
  obtain ⟨d, hod⟩ : ∃ d, (w1.side (!s)).outstanding = some d := by
    cases hd : (w1.side (!s)).outstanding with
    | none => exact absurd hd (a1 _)
    | some d => exact ⟨d, rfl⟩
  have hw2 : ((step w1 (.respond (!s) i .ok)).side (!s)).inner = true ∧
      (∀ b, ((step w1 (.respond (!s) i .ok)).side b).outstanding ≠ none) := by
    simp only [step, respond, hx, hod, p2, p3]
    constructor
    · simp
    · intro b
      by_cases hb : b = !s
      · subst hb; simp [hod]
      · have : b = s := by cases b <;> cases s <;> simp_all
        subst this
        simpa [World.setSide] using a1 b
  obtain ⟨i2, a2⟩ := hw2
  have h3 := deliver_all s ((step w1 (.respond (!s) i .ok)).chan (!s)).length (step w1 (.respond (!s) i .ok)) rfl a2
  obtain ⟨o3, a3, c3, c4, s3⟩ := h3
  have hinv3 := inv_run _ hinv2 o3
  refine ⟨(w.chan s).length, i, ((step w1 (.respond (!s) i .ok)).chan (!s)).length, ?_⟩
  have hrun : run w (List.replicate (w.chan s).length (.deliver (!s)) ++ .respond (!s) i .ok ::
      List.replicate ((step w1 (.respond (!s) i .ok)).chan (!s)).length (.deliver s)) =
      run (step w1 (.respond (!s) i .ok)) (List.replicate ((step w1 (.respond (!s) i .ok)).chan (!s)).length (.deliver s)) := by
    rw [run_append, hw1]; rfl
  refine ⟨orderly_append _ o1 (by rw [hw1]; exact ⟨ho2, o3⟩), ?_, ?_⟩
  · rw [hrun]
    have hq := (hinv3 (!s)).told (by rw [s3]; exact i2)
    rw [Bool.not_not, c4] at hq
    rcases hq with hq | hq | ⟨t, hq⟩
    · exact hq
    · exact absurd hq (a3 s)
    · cases hq
  · rw [hrun, s3]; exact i2

end Verif.JuiceSwitch
