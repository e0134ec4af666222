import Verif.Model.SpewerTrace
/-!
# C124: tracing a program with `Tracer` and `Spewer`
-/
namespace Verif.SpewerTrace
open Verif.Py
open Verif.Spewer (Local Code Ret TraceRet extractArgs trace)

/-! ## Which events a tracer is told of -/

/-- The event, if the frame is one of those. -/
def ifKept (keep : Frame → Bool) (fr : Frame) (ev : Event) : List (Frame × Event) := if keep fr then [(fr, ev)] else []

/-- What a frame returns: `None` if an exception leaves it. -/
def returned : Leave → Local
  | .ret v => v
  | .exc _ => pyNone

/-- The event of the caller's frame when an exception leaves a call. -/
def passedOn (keep : Frame → Bool) (fr : Frame) : Leave → List (Frame × Event)
  | .ret _ => []
  | .exc v => ifKept keep fr (.exc v)

mutual
/-- The events of a program for a tracer that is interested in the frames `keep`: all calls, and everything else of these frames. -/
def seenCall (keep : Frame → Bool) : Call → List (Frame × Event)
  | .mk fr body leave => (fr, .call) :: (seenActs keep fr body ++
      ifKept keep fr (.ret (returned leave)))
def seenActs (keep : Frame → Bool) (fr : Frame) : List Act → List (Frame × Event)
  | [] => []
  | a :: as => seenAct keep fr a ++ seenActs keep fr as
def seenAct (keep : Frame → Bool) (fr : Frame) : Act → List (Frame × Event)
  | .line => ifKept keep fr .line
  | .raised v => ifKept keep fr (.exc v)
  | .call c => seenCall keep c ++ passedOn keep fr c.leave
end

/-- The methods called for the events one after the other, up to the first that raises. -/
def tell {S : Type} (M : Methods S) : List (Frame × Event) → S → Option PyErr × S
  | [], s => (none, s)
  | (fr, ev) :: r, s =>
    match M ev fr s with
    | (.error e, s) => (some e, s)
    | (.ok _, s) => tell M r s

theorem tell_append {S : Type} (M : Methods S) (a b : List (Frame × Event)) (s : S) :
    tell M (a ++ b) s = match tell M a s with
      | (some e, s) => (some e, s)
      | (none, s) => tell M b s := by
  induction a generalizing s with
  | nil => rfl
  | cons x a ih =>
    obtain ⟨fr, ev⟩ := x
    rw [List.cons_append, tell, tell]
    cases h : M ev fr s with
    | mk r s' => cases r with
      | error e => rfl
      | ok r => exact ih s'

/-- The tracer's `trace_CALL` skips exactly the frames that are not `keep`, and no method returns anything but `skip` and `None`. -/
structure Keeps {S : Type} (M : Methods S) (keep : Frame → Bool) : Prop where
  call : ∀ fr s r s', M .call fr s = (.ok r, s') → r = if keep fr then .none else .skip
  others : ∀ ev fr s r s', ev ≠ .call → M ev fr s = (.ok r, s') → r = .none ∨ r = .skip

/-- The outcome of a piece of a program, given the one of telling its events. -/
def outcome {S α : Type} (a : α) (st : St S) : Option PyErr × S → Except PyErr α × St S
  | (none, s) => (.ok a, { st with tracer := s })
  | (some e, s) => (.error e, { st with tracer := s, tracing := false })

/-- the trace function of a frame -/
def fnOf (keep : Frame → Bool) (fr : Frame) : Option Fn := if keep fr then some .self else none

theorem fire_call {S : Type} {M : Methods S} {keep : Frame → Bool} (h : Keeps M keep) (fr : Frame) (st : St S) :
    fire M none .call fr st = outcome (fnOf keep fr) st (tell M [(fr, .call)] st.tracer) := by
  unfold fire traceOf
  simp only [if_true, tell]
  cases hm : M .call fr st.tracer with
  | mk r s' => cases r with
    | error e => rfl
    | ok r =>
      have := h.call _ _ _ _ hm
      unfold fnOf
      by_cases hk : keep fr = true
      · rw [if_pos hk] at this ⊢; subst this; rfl
      · rw [if_neg hk] at this ⊢; subst this; rfl

theorem fire_local {S : Type} {M : Methods S} {keep : Frame → Bool} (h : Keeps M keep) (ev : Event) (hev : ev ≠ .call) (fr : Frame)
    (st : St S) : fire M (fnOf keep fr) ev fr st = outcome (fnOf keep fr) st (tell M (ifKept keep fr ev) st.tracer) := by
  unfold fire traceOf fnOf ifKept
  rw [if_neg hev]
  by_cases hk : keep fr = true
  · simp only [if_pos hk, tell]
    cases hm : M ev fr st.tracer with
    | mk r s' => cases r with
      | error e => rfl
      | ok r => rcases h.others _ _ _ _ _ hev hm with rfl | rfl <;> rfl
  · simp only [if_neg hk]; rfl

mutual
theorem runCall_seen {S : Type} {M : Methods S} {keep : Frame → Bool} (h : Keeps M keep) : ∀ (c : Call) (st : St S),
    runCall M c st = outcome () st (tell M (seenCall keep c) st.tracer)
  | .mk fr body leave, st => by
    rw [runCall, fire_call h, seenCall]
    have e : (fr, Event.call) :: (seenActs keep fr body ++ ifKept keep fr (.ret (returned leave))) =
      [(fr, .call)] ++ (seenActs keep fr body ++ ifKept keep fr (.ret (returned leave))) := rfl
    rw [e, tell_append M [(fr, .call)] (seenActs keep fr body ++ ifKept keep fr (.ret (returned leave)))]
    rcases tell M [(fr, .call)] st.tracer with ⟨_ | e, s⟩
    · simp only [outcome]
      rw [runActs_seen h fr body { st with tracer := s }, tell_append]
      simp only
      rcases tell M (seenActs keep fr body) s with ⟨_ | e, s2⟩
      · simp only [outcome]
        have ea : leave.arg = returned leave := by cases leave <;> rfl
        rw [fire_local h _ (by simp) fr { st with tracer := s2 }, ea]
        simp only
        rcases tell M (ifKept keep fr _) s2 with ⟨_ | e, s3⟩ <;> rfl
      · rfl
    · rfl
theorem runActs_seen {S : Type} {M : Methods S} {keep : Frame → Bool} (h : Keeps M keep) (fr : Frame) :
    ∀ (as : List Act) (st : St S),
    runActs M fr as (fnOf keep fr) st = outcome (fnOf keep fr) st (tell M (seenActs keep fr as) st.tracer)
  | [], st => by rw [runActs, seenActs, tell]; rfl
  | a :: as, st => by
    rw [runActs, seenActs, runAct_seen h fr a st, tell_append]
    rcases tell M (seenAct keep fr a) st.tracer with ⟨_ | e, s⟩
    · simp only [outcome]
      rw [runActs_seen h fr as { st with tracer := s }]
      rcases tell M (seenActs keep fr as) s with ⟨_ | e, s2⟩ <;> rfl
    · rfl
theorem runAct_seen {S : Type} {M : Methods S} {keep : Frame → Bool} (h : Keeps M keep) (fr : Frame) :
    ∀ (a : Act) (st : St S),
    runAct M fr a (fnOf keep fr) st = outcome (fnOf keep fr) st (tell M (seenAct keep fr a) st.tracer)
  | .line, st => by rw [runAct, seenAct]; exact fire_local h _ (by simp) fr st
  | .raised v, st => by rw [runAct, seenAct]; exact fire_local h _ (by simp) fr st
  | .call c, st => by
    rw [runAct, seenAct, runCall_seen h c st, tell_append]
    rcases tell M (seenCall keep c) st.tracer with ⟨_ | e, s⟩
    · cases c.leave with
      | ret v => rfl
      | exc v =>
        simp only [outcome, afterCall, passedOn]
        rw [fire_local h _ (by simp) fr { st with tracer := s }]
        rcases tell M (ifKept keep fr (.exc v)) s with ⟨_ | e, s2⟩ <;> rfl
    · rfl
end

/-- **C124.** A tracer whose methods return `None`, or `skip` for the calls of some frames, is told of every call, and of the lines,
exceptions and returns of exactly those frames whose calls it did not skip, in their order.  If none of its methods raises, the
program runs as it would; the first that does ends the tracing, and its exception is raised in the program. -/
theorem told {S : Type} {M : Methods S} {keep : Frame → Bool} (h : Keeps M keep) (c : Call) (st : St S) :
    (∀ s, tell M (seenCall keep c) st.tracer = (none, s) → runCall M c st = (.ok (), { st with tracer := s })) ∧
    (∀ e s, tell M (seenCall keep c) st.tracer = (some e, s) →
      runCall M c st = (.error e, { st with tracer := s, tracing := false })) := by
  rw [runCall_seen h c st]
  exact ⟨fun s e => by rw [e]; rfl, fun e s e' => by rw [e']; rfl⟩

/-- A `Tracer` itself does nothing, whatever the program. -/
theorem tracer_idle {S : Type} (c : Call) (st : St S) : runCall (tracerMethods S) c st = (.ok (), st) := by
  have h : Keeps (tracerMethods S) fun _ => true :=
    ⟨fun fr s r s' e => by cases e; rfl, fun ev fr s r s' _ e => by cases e; exact Or.inl rfl⟩
  have ht : ∀ (l : List (Frame × Event)) (s : S), tell (tracerMethods S) l s = (none, s) := by
    intro l
    induction l with
    | nil => intro s; rfl
    | cons x l ih => intro s; exact ih s
  exact (told h c st).1 _ (ht _ _)

/-! ## What the Spewer prints -/

/-- A printed line: its indentation, and the call or the result it shows. -/
inductive Item where
  | call (depth : Nat) (text : Str)
  | ret (depth : Nat) (text : Str)
  deriving DecidableEq, Repr

/-- The tree of calls: each with its text, the text of its result if that is not `None`, and the calls made in it. -/
inductive Tree where
  | mk (text : Str) (result : Option Str) (children : List Tree)

/-- The line for the result. -/
def resultLine (d : Nat) : Option Str → List Item
  | none => []
  | some v => [.ret d v]

mutual
/-- A call in `d` other calls: it is shown, then the calls made in it, then its result. -/
def render (d : Nat) : Tree → List Item
  | .mk text result children => .call (d + 1) text :: (renderAll (d + 1) children ++ resultLine (d + 1) result)
def renderAll (d : Nat) : List Tree → List Item
  | [] => []
  | t :: ts => render d t ++ renderAll d ts
end

/-- The text of a line. -/
def Item.line (w : World) : Item → Str
  | .call d t => w.thread ++ [32] ++ List.replicate d 32 ++ t
  | .ret d t => w.thread ++ [32] ++ List.replicate d 32 ++ ([60, 61, 32] ++ t)

/-- `Class.name(arg=value, …)` -/
def callText (w : World) (fr : Frame) : Str :=
  (match fr.locals.get? [115, 101, 108, 102] with
    | some (.obj 0) => []
    | some v => w.qual v ++ [46]
    | none => []) ++ fr.name ++ [40] ++
  (match extractArgs fr.code fr.locals with
    | .ok args => [44, 32].intercalate ((w.order args).map fun kv => kv.1 ++ [61] ++ w.safeRepr kv.2)
    | .error _ => []) ++ [41]

/-- The text of a result. -/
def resultText (w : World) : Leave → Option Str
  | .ret (.obj 0) => none
  | .ret v => some (w.safeRepr v)
  | .exc _ => none

mutual
/-- The tree of the calls of a program. -/
def treeOf (w : World) : Call → Tree
  | .mk fr body leave => .mk (callText w fr) (resultText w leave) (treesOf w body)
def treesOf (w : World) : List Act → List Tree
  | [] => []
  | .call c :: as => treeOf w c :: treesOf w as
  | .line :: as => treesOf w as
  | .raised _ :: as => treesOf w as
end

mutual
/-- No exception is raised, and the variables of the frames are there. -/
def Calm : Call → Prop
  | .mk fr body leave => (∃ args, extractArgs fr.code fr.locals = .ok args) ∧ (∃ v, leave = .ret v) ∧ CalmAll body
def CalmAll : List Act → Prop
  | [] => True
  | .call c :: as => Calm c ∧ CalmAll as
  | .line :: as => CalmAll as
  | .raised _ :: _ => False
end

theorem joinSep_intercalate (sep : Str) : ∀ l : List Str, joinSep sep l = sep.intercalate l
  | [] => rfl
  | [a] => by simp [joinSep]
  | a :: b :: l => by
    rw [joinSep, joinSep_intercalate sep (b :: l)]
    simp [List.intercalate, List.intersperse]

theorem spewer_keeps (w : World) : Keeps (spewer w) fun _ => true := by
  refine ⟨fun fr s r s' e => ?_, fun ev fr s r s' hev e => ?_⟩
  · simp only [spewer, traceCall] at e
    split at e
    · cases e
    · split at e
      · cases e
      · cases e; rfl
  · cases ev with
    | call => exact absurd rfl hev
    | line => cases e; exact Or.inl rfl
    | ret v => cases e; exact Or.inl rfl
    | exc v => cases e; exact Or.inl rfl

theorem spew_call (w : World) (hw : w.py3 = false) (fr : Frame) (h : ∃ args, extractArgs fr.code fr.locals = .ok args) (d : Nat)
    (out : List Str) : tell (spewer w) [(fr, .call)] ⟨d, out⟩ =
      (none, ⟨(d + 1 : Nat), out ++ [(Item.call (d + 1) (callText w fr)).line w]⟩) := by
  obtain ⟨args, h⟩ := h
  simp only [tell, spewer, traceCall, h, formatArgs, hw, Bool.false_eq_true, if_false, Item.line, callText, joinSep_intercalate]
  have e : ((d : Int) + 1) = ((d + 1 : Nat) : Int) := by omega
  have hs : ofSelf w fr = match fr.locals.get? [115, 101, 108, 102] with
      | some (.obj 0) => []
      | some v => w.qual v ++ [46]
      | none => [] := by
    unfold ofSelf nSelf
    rcases fr.locals.get? [115, 101, 108, 102] with _ | (s | n)
    · rfl
    · simp [pyNone]
    · cases n <;> simp [pyNone]
  have hj : ∀ kv : Str × Local, [61].intercalate [kv.1, w.safeRepr kv.2] = kv.1 ++ [61] ++ w.safeRepr kv.2 := by
    intro kv; simp [List.intercalate]
  rw [hs]
  simp only [hj, e, spaces, Int.toNat_natCast, List.append_assoc]

theorem spew_ret (w : World) (fr : Frame) (v : Local) (d : Nat) (out : List Str) :
    tell (spewer w) [(fr, .ret v)] ⟨(d + 1 : Nat), out⟩ = (none, ⟨d, out ++ (resultLine (d + 1) (resultText w (.ret v))).map (Item.line w)⟩) := by
  have e : max 0 (((d + 1 : Nat) : Int) - 1) = d := by omega
  simp only [tell, spewer, traceReturn, e]
  have : (v = pyNone ∧ resultText w (.ret v) = none) ∨ (v ≠ pyNone ∧ resultText w (.ret v) = some (w.safeRepr v)) := by
    rcases v with s | n
    · exact Or.inr ⟨by simp [pyNone], rfl⟩
    · cases n with
      | zero => exact Or.inl ⟨rfl, rfl⟩
      | succ n => exact Or.inr ⟨by simp [pyNone], rfl⟩
  rcases this with ⟨h1, h2⟩ | ⟨h1, h2⟩
  · rw [h2, if_neg (by simp [h1])]; simp [resultLine]
  · rw [h2, if_pos h1]; simp [Item.line, spaces, resultLine]

mutual
theorem spew_seen (w : World) (hw : w.py3 = false) : ∀ (c : Call) (_ : Calm c) (d : Nat) (out : List Str),
    tell (spewer w) (seenCall (fun _ => true) c) ⟨d, out⟩ = (none, ⟨d, out ++ (render d (treeOf w c)).map (Item.line w)⟩)
  | .mk fr body leave, h, d, out => by
    rw [Calm] at h
    obtain ⟨h1, ⟨v, rfl⟩, h2⟩ := h
    rw [seenCall]
    have e : ∀ l : List (Frame × Event), (fr, Event.call) :: l = [(fr, .call)] ++ l := fun l => rfl
    rw [e, tell_append, spew_call w hw fr h1]
    simp only
    rw [tell_append, spews_seen w hw fr body h2]
    simp only [ifKept, if_true]
    rw [spew_ret]
    rw [treeOf, render]
    simp only [List.map_cons, List.map_append, List.append_assoc, List.singleton_append]
    rfl
theorem spews_seen (w : World) (hw : w.py3 = false) (fr : Frame) : ∀ (as : List Act) (_ : CalmAll as) (d : Nat) (out : List Str),
    tell (spewer w) (seenActs (fun _ => true) fr as) ⟨d, out⟩ = (none, ⟨d, out ++ (renderAll d (treesOf w as)).map (Item.line w)⟩)
  | [], _, d, out => by rw [seenActs, tell, treesOf, renderAll]; simp
  | .call c :: as, h, d, out => by
    rw [CalmAll] at h
    obtain ⟨h1, h2⟩ := h
    rw [seenActs, seenAct, tell_append, tell_append, spew_seen w hw _ h1]
    have hl : passedOn (fun _ => true) fr c.leave = [] := by
      obtain ⟨fr', body, leave⟩ := c
      rw [Calm] at h1
      obtain ⟨-, ⟨v, rfl⟩, -⟩ := h1
      rfl
    simp only [tell, hl]
    rw [spews_seen w hw fr as h2, treesOf, renderAll]
    simp only [List.map_append, List.append_assoc]
  | .line :: as, h, d, out => by
    rw [CalmAll] at h
    rw [seenActs, seenAct, tell_append]
    simp only [ifKept, if_true, tell, spewer, tracerMethods]
    rw [spews_seen w hw fr as h, treesOf]
  | .raised v :: as, h, d, out => by rw [CalmAll] at h; exact h.elim
end

/-- **C124, partial** (Python 2, programs without exceptions): the Spewer prints the tree of the calls, each indented by the number of
calls it is in, with its arguments, and below the calls made in it its result, unless that is `None`; afterwards the depth is what it
was, and the program ran as it would. -/
theorem spew_partial (w : World) (hw : w.py3 = false) (c : Call) (hc : Calm c) (d : Nat) (out : List Str) (t : Bool)
    (o : List (Nat × Event)) : runCall (spewer w) c ⟨⟨d, out⟩, t, o⟩ =
      (.ok (), ⟨⟨d, out ++ (render d (treeOf w c)).map (Item.line w)⟩, t, o⟩) :=
  (told (spewer_keeps w) c _).1 _ (spew_seen w hw c hc d out)

/-! ### The print can be read back -/

/-- how far a line is indented -/
def Item.depth : Item → Nat
  | .call d _ => d
  | .ret d _ => d

/-- Nothing, or lines that are indented at most by `d`. -/
def Ends (d : Nat) (l : List Item) : Prop := ∀ x r, l = x :: r → x.depth ≤ d

theorem ends_result {d : Nat} (result : Option Str) {rest : List Item} (h : Ends (d + 1) rest) :
    Ends (d + 1) (resultLine (d + 1) result ++ rest) := by
  cases result with
  | none => exact h
  | some v =>
    rintro x r e
    cases e
    exact Nat.le_refl _

theorem ends_all {d : Nat} (ts : List Tree) {rest : List Item} (h : Ends d rest) : Ends (d + 1) (renderAll d ts ++ rest) := by
  cases ts with
  | nil =>
    rw [renderAll]
    exact fun x r e => Nat.le_succ_of_le (h x r e)
  | cons t ts =>
    obtain ⟨text, result, children⟩ := t
    rw [renderAll, render]
    rintro x r e
    cases e
    exact Nat.le_refl _

/-- What follows a call is not a result at its indentation. -/
theorem no_result {d : Nat} (ts : List Tree) {rest : List Item} (h : Ends d rest) (v : Str) (r : List Item) :
    renderAll d ts ++ rest ≠ .ret (d + 1) v :: r := by
  intro e
  cases ts with
  | nil =>
    rw [renderAll] at e
    have := h _ _ e
    simp only [Item.depth] at this
    omega
  | cons t ts =>
    obtain ⟨text, result, children⟩ := t
    rw [renderAll, render] at e
    cases e

theorem renderAll_injective : ∀ (ts us : List Tree) (d : Nat) (r s : List Item), Ends d r → Ends d s →
    renderAll d ts ++ r = renderAll d us ++ s → ts = us ∧ r = s
  | [], [], d, r, s, _, _, e => by
    rw [renderAll] at e
    exact ⟨rfl, e⟩
  | [], .mk text result children :: us, d, r, s, hr, hs, e => by
    rw [renderAll, renderAll, render] at e
    have := hr _ _ e
    simp only [Item.depth] at this
    omega
  | .mk text result children :: ts, [], d, r, s, hr, hs, e => by
    rw [renderAll, renderAll, render] at e
    have := hs _ _ e.symm
    simp only [Item.depth] at this
    omega
  | .mk text result children :: ts, .mk text' result' children' :: us, d, r, s, hr, hs, e => by
    rw [renderAll, renderAll, render, render] at e
    simp only [List.cons_append, List.append_assoc, List.cons.injEq, Item.call.injEq, true_and] at e
    obtain ⟨rfl, e0⟩ := e
    obtain ⟨rfl, e1⟩ := renderAll_injective children children' (d + 1) _ _ (ends_result result (ends_all ts hr))
      (ends_result result' (ends_all us hs)) e0
    clear e0
    have : result = result' ∧ renderAll d ts ++ r = renderAll d us ++ s := by
      cases result with
      | none => cases result' with
        | none => exact ⟨rfl, e1⟩
        | some v => exact absurd e1 (no_result ts hr v _)
      | some v => cases result' with
        | none => exact absurd e1.symm (no_result us hs v _)
        | some v' =>
          simp only [resultLine, List.singleton_append, List.cons.injEq, Item.ret.injEq, true_and] at e1
          exact ⟨by rw [e1.1], e1.2⟩
    obtain ⟨rfl, e2⟩ := this
    obtain ⟨rfl, rfl⟩ := renderAll_injective ts us d r s hr hs e2
    exact ⟨rfl, rfl⟩

/-- Text of a call that cannot be taken for indentation or for a result. -/
def PlainText (t : Str) : Prop := (∃ c r, t = c :: r ∧ c ≠ 32) ∧ ∀ r, t ≠ [60, 61, 32] ++ r

mutual
def PlainTree : Tree → Prop
  | .mk text _ children => PlainText text ∧ PlainTrees children
def PlainTrees : List Tree → Prop
  | [] => True
  | t :: ts => PlainTree t ∧ PlainTrees ts
end

def Item.Plain : Item → Prop
  | .call _ t => PlainText t
  | .ret _ _ => True

mutual
theorem render_plain : ∀ (t : Tree) (d : Nat), PlainTree t → ∀ x ∈ render d t, x.Plain
  | .mk text result children, d, h, x, hx => by
    rw [PlainTree] at h
    rw [render] at hx
    rcases List.mem_cons.1 hx with rfl | hx
    · exact h.1
    · rcases List.mem_append.1 hx with hx | hx
      · exact renderAll_plain children (d + 1) h.2 x hx
      · cases result with
        | none => cases hx
        | some v => rw [List.mem_singleton.1 hx]; trivial
theorem renderAll_plain : ∀ (ts : List Tree) (d : Nat), PlainTrees ts → ∀ x ∈ renderAll d ts, x.Plain
  | [], d, h, x, hx => by rw [renderAll] at hx; cases hx
  | t :: ts, d, h, x, hx => by
    rw [PlainTrees] at h
    rw [renderAll] at hx
    rcases List.mem_append.1 hx with hx | hx
    · exact render_plain t d h.1 x hx
    · exact renderAll_plain ts d h.2 x hx
end

theorem spaces_injective : ∀ (m n : Nat) (c d : Nat) (r s : Str), c ≠ 32 → d ≠ 32 →
    List.replicate m 32 ++ c :: r = List.replicate n 32 ++ d :: s → m = n ∧ c :: r = d :: s
  | 0, 0, c, d, r, s, _, _, e => ⟨rfl, e⟩
  | 0, n + 1, c, d, r, s, hc, hd, e => by
    rw [List.replicate_succ] at e
    simp only [List.replicate_zero, List.nil_append, List.cons_append, List.cons.injEq] at e
    exact absurd e.1 hc
  | m + 1, 0, c, d, r, s, hc, hd, e => by
    rw [List.replicate_succ] at e
    simp only [List.replicate_zero, List.nil_append, List.cons_append, List.cons.injEq] at e
    exact absurd e.1.symm hd
  | m + 1, n + 1, c, d, r, s, hc, hd, e => by
    rw [List.replicate_succ, List.replicate_succ] at e
    simp only [List.cons_append, List.cons.injEq, true_and] at e
    obtain ⟨h1, h2⟩ := spaces_injective m n c d r s hc hd e
    exact ⟨by rw [h1], h2⟩

theorem line_injective (w : World) (x y : Item) (hx : x.Plain) (hy : y.Plain) (h : x.line w = y.line w) : x = y := by
  cases x with
  | call d t =>
    obtain ⟨⟨c, r, rfl, hc⟩, ht⟩ := hx
    cases y with
    | call d' t' =>
      obtain ⟨⟨c', r', rfl, hc'⟩, -⟩ := hy
      simp only [Item.line, List.append_assoc, List.append_cancel_left_eq] at h
      obtain ⟨rfl, h'⟩ := spaces_injective _ _ _ _ _ _ hc hc' h
      rw [h']
    | ret d' t' =>
      simp only [Item.line, List.append_assoc, List.append_cancel_left_eq] at h
      obtain ⟨rfl, h'⟩ := spaces_injective _ _ _ _ _ _ hc (by decide : (60 : Nat) ≠ 32) h
      exact absurd h' (ht t')
  | ret d t =>
    cases y with
    | call d' t' =>
      obtain ⟨⟨c', r', rfl, hc'⟩, ht⟩ := hy
      simp only [Item.line, List.append_assoc, List.append_cancel_left_eq] at h
      obtain ⟨rfl, h'⟩ := spaces_injective _ _ _ _ _ _ (by decide : (60 : Nat) ≠ 32) hc' h
      exact absurd h'.symm (ht t)
    | ret d' t' =>
      simp only [Item.line, List.append_assoc, List.append_cancel_left_eq] at h
      obtain ⟨rfl, h'⟩ := spaces_injective _ _ _ _ _ _ (by decide : (60 : Nat) ≠ 32) (by decide : (60 : Nat) ≠ 32) h
      have e : t = t' := by simpa using h'
      rw [e]

theorem map_line_injective (w : World) : ∀ (l m : List Item), (∀ x ∈ l, x.Plain) → (∀ x ∈ m, x.Plain) →
    l.map (Item.line w) = m.map (Item.line w) → l = m
  | [], [], _, _, _ => rfl
  | [], _ :: _, _, _, h => by cases h
  | _ :: _, [], _, _, h => by cases h
  | x :: l, y :: m, hl, hm, h => by
    simp only [List.map_cons, List.cons.injEq] at h
    rw [line_injective w x y (hl x List.mem_cons_self) (hm y List.mem_cons_self) h.1,
      map_line_injective w l m (fun z hz => hl z (List.mem_cons_of_mem _ hz)) (fun z hz => hm z (List.mem_cons_of_mem _ hz)) h.2]

/-- **C124.** What is printed tells the tree: trees of calls, the texts of which are not like indentation or results, are the same if
they print the same. -/
theorem readback (w : World) (d : Nat) (t u : Tree) (ht : PlainTree t) (hu : PlainTree u)
    (h : (render d t).map (Item.line w) = (render d u).map (Item.line w)) : t = u := by
  have e := map_line_injective w _ _ (render_plain t d ht) (render_plain u d hu) h
  have := renderAll_injective [t] [u] d [] [] (by rintro x r ⟨⟩) (by rintro x r ⟨⟩) (by
    simp only [renderAll, List.append_nil]; exact e)
  simpa using this.1

/-! ## Where it fails -/

/-- C124 is false on Python 3: whatever the program, nothing is printed, and its first call raises `AttributeError`, which also ends the
tracing. -/
theorem spew_py3_fails (w : World) (hw : w.py3 = true) (c : Call) (hc : Calm c) (d : Int) (out : List Str) (t : Bool)
    (o : List (Nat × Event)) :
    runCall (spewer w) c ⟨⟨d, out⟩, t, o⟩ = (.error .attributeError, ⟨⟨d + 1, out⟩, false, o⟩) := by
  obtain ⟨fr, body, leave⟩ := c
  rw [Calm] at hc
  obtain ⟨⟨args, ha⟩, -⟩ := hc
  rw [runCall]
  simp [fire, traceOf, spewer, traceCall, ha, formatArgs, hw]

/-- Functions without variables. -/
def plainFrame (name : Str) : Frame := ⟨name, ⟨0, 0, []⟩, []⟩

def plainWorld (py3 : Bool) : World where
  safeRepr v := match v with
    | .str s => s
    | .obj n => [48 + n]
  qual _ := [67]
  order := id
  thread := [49]
  py3 := py3

/-- `def f(): try: g() except: pass; h(); return 1` where `g` raises an exception. -/
def catching : Call := .mk (plainFrame [102]) [.line, .call (.mk (plainFrame [103]) [.line, .raised (.obj 5)] (.exc (.obj 5))), .line,
  .call (.mk (plainFrame [104]) [.line] (.ret (.obj 2)))] (.ret (.obj 1))

/-- C124 is false of programs with exceptions that are caught: each is counted once for every frame it passes, and again by the returns
of these frames, so that `h()` and even the result of `f()` are printed as if they were outermost.
```
1  f()
1   g()
1   ^- 5
1  ^- 5
1  h()
1  <= 2
1 <= 1
``` -/
theorem spew_exception_fails : (runCall (spewer (plainWorld false)) catching ⟨⟨0, []⟩, true, []⟩).2.tracer.out =
    [[49, 32, 32, 102, 40, 41], [49, 32, 32, 32, 103, 40, 41], [49, 32, 32, 32, 94, 45, 32, 53], [49, 32, 94, 45, 32, 53],
     [49, 32, 32, 104, 40, 41], [49, 32, 32, 60, 61, 32, 50], [49, 32, 60, 61, 32, 49]] := by decide +kernel

/-! ## Concrete cases -/

/-- `skip` means nothing for other events than calls: a tracer that returns it for a line goes on being told of the lines. -/
def skipsLines : Methods Nat
  | .line, _, n => (.ok .skip, n + 1)
  | _, _, n => (.ok .none, n)

example : runCall skipsLines (.mk (plainFrame [102]) [.line, .line, .line] (.ret (.obj 1))) ⟨0, true, []⟩ = (.ok (), ⟨3, true, []⟩) := rfl

/-- A tracer that counts the events of all functions but `g`, and raises an exception at the fifth. -/
def picky : Methods Nat
  | .call, fr, n => if n = 4 then (.error .valueError, n) else (.ok (if fr.name = [103] then .skip else .none), n + 1)
  | _, _, n => if n = 4 then (.error .valueError, n) else (.ok .none, n + 1)

example : Keeps picky fun fr => fr.name != [103] := by
  refine ⟨fun fr s r s' e => ?_, fun ev fr s r s' hev e => ?_⟩
  · simp only [picky] at e
    split at e
    · cases e
    · cases e
      by_cases h : fr.name = [103] <;> simp [h]
  · cases ev with
    | call => exact absurd rfl hev
    | _ =>
      simp only [picky] at e
      split at e
      · cases e
      · cases e; exact Or.inl rfl

/-- It is told of `f`, a line, `g`, the exception of `f`; the next line raises. -/
example : (seenCall (fun fr => fr.name != [103]) catching).map (fun p => (p.1.name, p.2)) =
      [([102], .call), ([102], .line), ([103], .call), ([102], .exc (.obj 5)), ([102], .line), ([104], .call), ([104], .line),
       ([104], .ret (.obj 2)), ([102], .ret (.obj 1))] ∧
    runCall picky catching ⟨0, true, []⟩ = (.error .valueError, ⟨4, false, []⟩) := ⟨rfl, rfl⟩

/-- `class C: def f(self, x): g(); return 'r'`: `f` has variables. -/
def method : Call := .mk ⟨[102], ⟨2, 0, [nSelf, [120]]⟩, [(nSelf, .obj 7), ([120], .str [97])]⟩
  [.line, .call (.mk (plainFrame [103]) [.line] (.ret pyNone)), .line] (.ret (.str [114]))

/-- It prints `C.f(self=7, x=a)`, `g()` and `<= r`. -/
example : Calm method ∧ PlainTree (treeOf (plainWorld false) method) ∧
    (runCall (spewer (plainWorld false)) method ⟨⟨0, []⟩, true, []⟩).2.tracer.out =
      [[49, 32, 32, 67, 46, 102, 40, 115, 101, 108, 102, 61, 55, 44, 32, 120, 61, 97, 41], [49, 32, 32, 32, 103, 40, 41],
       [49, 32, 32, 60, 61, 32, 114]] := by
  refine ⟨?_, ?_, by decide +kernel⟩
  · simp only [method, Calm, CalmAll, and_true]
    exact ⟨⟨_, rfl⟩, ⟨_, rfl⟩, ⟨_, rfl⟩, _, rfl⟩
  · simp only [method, treeOf, treesOf, PlainTree, PlainTrees, and_true]
    exact ⟨⟨⟨_, _, rfl, by decide⟩, by rintro r ⟨⟩⟩, ⟨_, _, rfl, by decide⟩, by rintro r ⟨⟩⟩

end Verif.SpewerTrace
