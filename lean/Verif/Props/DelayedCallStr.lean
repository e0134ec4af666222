import Verif.Model.DelayedCallStr
import Verif.Props.DelayedCall
/-!
# What the text of a DelayedCall tells: C117
-/
namespace Verif.DelayedCallStr
open Verif.Py Verif.DelayedCall

/-! ## The text, described -/

/-- A text. -/
def txt (s : String) : List Nat := s.toList.map Char.toNat

/-- The function's name. -/
inductive Named : Fn → List Nat → Prop where
  | func (n : List Nat) : Named (.func n) n
  | method (c n : List Nat) : Named (.method c n) (c ++ txt "." ++ n)
  | other (r : List Nat) : Named (.other r) r

/-- The call as it would be written in a program: the arguments, then the keyword arguments, separated by commas. -/
def Written (d : Desc) (s : List Nat) : Prop :=
  ∃ f, Named d.fn f ∧ s = f ++ txt "(" ++ joinSep (txt ", ") (d.args ++ d.kw.map fun p => p.1 ++ txt "=" ++ p.2) ++ txt ")"

/-- `0` or `1`. -/
def flagText (b : Bool) : List Nat := txt (if b then "1" else "0")

theorem joinSep_append_ne {sep : List Nat} {a b : List (List Nat)} (ha : a ≠ []) (hb : b ≠ []) :
    joinSep sep (a ++ b) = joinSep sep a ++ sep ++ joinSep sep b := by
  induction a with
  | nil => exact absurd rfl ha
  | cons x a ih =>
    cases a with
    | nil =>
      cases b with
      | nil => exact absurd rfl hb
      | cons y b => rfl
    | cons y a =>
      show joinSep sep (x :: y :: (a ++ b)) = _
      rw [joinSep, joinSep]
      have := ih (by simp)
      rw [List.cons_append] at this
      rw [this]
      simp only [List.append_assoc]

theorem callText_written (d : Desc) : ∃ s, Written d s ∧ callText d = txt " " ++ s := by
  have hf : Named d.fn (fnText d.fn) := by
    cases d.fn with
    | func n => exact .func n
    | method c n => exact .method c n
    | other r => exact .other r
  refine ⟨_, ⟨_, hf, rfl⟩, ?_⟩
  have e1 : txt "(" = [40] := by decide
  have e2 : txt ")" = [41] := by decide
  have e3 : txt ", " = [44, 32] := by decide
  have e4 : txt " " = [32] := by decide
  have e5 : txt "=" = [61] := by decide
  rw [e1, e2, e3, e4, e5]
  unfold callText
  by_cases ha : d.args = [] <;> by_cases hk : d.kw = []
  · simp [ha, hk, joinSep]
  · simp [ha, hk]
  · simp [ha, hk]
  · rw [joinSep_append_ne ha (by simpa using hk)]
    simp [ha, hk]

theorem flag_eq (b : Bool) : flag b = flagText b := by cases b <;> decide

/-! ## C117 -/

/-- What the text of a call without `debug` is: the number, the seconds, both flags, and the call as long as it is not cancelled. -/
inductive Text (showSeconds : Int → List Nat) (ident : List Nat) (seconds : Int) (called : Bool) : Option Desc → List Nat → Prop where
  | pending (d : Desc) (s : List Nat) (hs : Written d s) : Text showSeconds ident seconds called (some d)
      (txt "<DelayedCall " ++ ident ++ txt " [" ++ showSeconds seconds ++ txt "s] called=" ++ flagText called ++
        txt " cancelled=0 " ++ s ++ txt ">")
  | cancelled : Text showSeconds ident seconds called none
      (txt "<DelayedCall " ++ ident ++ txt " [" ++ showSeconds seconds ++ txt "s] called=" ++ flagText called ++
        txt " cancelled=1>")

/-- What the owner of the call knows: the time that it was told last.  It is told of earlier times at once, and finds out about
later ones when it activates the delay. -/
def tell (h : Int) (a : Asked) : Op → Int
  | .activate => a.time
  | _ => min h a.time

/-- What was asked for and what the owner was told, after a history. -/
def history (own : Bool) : Int × Asked → List Op → Int × Asked
  | s, [] => s
  | (h, a), o :: os => history own (tell h (ask own a o) o, ask own a o) os

theorem history_asked (own : Bool) (os : List Op) (h : Int) (a : Asked) : (history own (h, a) os).2 = asked own a os := by
  induction os generalizing h a with
  | nil => rfl
  | cons o os ih => exact ih _ _

theorem step_told (c : Call) (a : Asked) (o : Op) (h : getTime c = a.time ∧ c.cancelled = a.cancelled ∧ c.called = a.called)
    (hd : 0 ≤ c.delayed) : (DelayedCall.step c o).1.time = tell c.time (ask c.own a o) o := by
  have hs := step_asked c a o h
  have hd' := delayed_step c o hd
  obtain ⟨hs, -⟩ := hs
  have hg : getTime c = c.time + c.delayed := rfl
  have hg' : getTime (DelayedCall.step c o).1 = (DelayedCall.step c o).1.time + (DelayedCall.step c o).1.delayed := rfl
  cases o with
  | cancel =>
    show _ = min c.time _
    rw [← hs, hg']
    have : (DelayedCall.step c .cancel).1.time = c.time := by
      unfold DelayedCall.step
      dsimp only
      split <;> rfl
    omega
  | made =>
    show _ = min c.time _
    rw [← hs, hg']
    have : (DelayedCall.step c .made).1.time = c.time := rfl
    omega
  | activate =>
    show _ = (ask c.own a .activate).time
    rw [← hs, hg']
    have : (DelayedCall.step c .activate).1.delayed = 0 := rfl
    omega
  | delay s =>
    show _ = min c.time _
    rw [← hs, hg']
    have : (DelayedCall.step c (.delay s)).1.time = c.time ∨ (DelayedCall.step c (.delay s)).1.time < c.time ∧
        (DelayedCall.step c (.delay s)).1.delayed = 0 := by
      unfold DelayedCall.step
      dsimp only
      split
      · exact .inl rfl
      · split
        · rename_i hlt
          refine .inr ⟨?_, rfl⟩
          show c.time + (c.delayed + s) < c.time
          have : c.delayed + s < 0 := hlt
          omega
        · exact .inl rfl
    omega
  | reset b w s =>
    show _ = min c.time _
    rw [← hs, hg']
    have : (DelayedCall.step c (.reset b w s)).1.time = c.time ∨ (DelayedCall.step c (.reset b w s)).1.time < c.time ∧
        (DelayedCall.step c (.reset b w s)).1.delayed = 0 := by
      unfold DelayedCall.step
      dsimp only
      split
      · exact .inl rfl
      · split
        · rename_i hlt
          exact .inr ⟨hlt, rfl⟩
        · exact .inl rfl
    omega

/-- What an object is after a history: `frozen` is the text that it keeps. -/
structure Inv (ident : List Nat) (creator : Option (List (List Nat))) (d : Desc) (own : Bool) (s : Int × Asked) (o : Obj) : Prop where
  hident : o.ident = ident
  hcreator : o.creator = creator
  htime : o.call.time = s.1
  hget : getTime o.call = s.2.time
  hcanc : o.call.cancelled = s.2.cancelled
  hcalled : o.call.called = s.2.called
  hown : o.call.own = own
  hdel : 0 ≤ o.call.delayed
  hdesc : o.desc = if s.2.cancelled then none else some d
  hstr : o.str.isSome = (s.2.cancelled && creator.isSome)

theorem step_call (f : Int → List Nat) (o : Obj) (op : Op) (now : Int) : (step f o op now).call = (DelayedCall.step o.call op).1 := by
  unfold step
  dsimp only
  split
  · dsimp only
    split <;> rfl
  · rfl

theorem Inv.step {ident : List Nat} {creator : Option (List (List Nat))} {d : Desc} {own : Bool} {h : Int} {a : Asked} {o : Obj}
    (hi : Inv ident creator d own (h, a) o) (f : Int → List Nat) (op : Op) (now : Int) :
    Inv ident creator d own (tell h (ask own a op) op, ask own a op) (step f o op now) := by
  have hs := step_asked o.call a op ⟨hi.hget, hi.hcanc, hi.hcalled⟩
  have ht := step_told o.call a op ⟨hi.hget, hi.hcanc, hi.hcalled⟩ hi.hdel
  obtain ⟨h1, h2, h3, h4⟩ := hs
  have hd := delayed_step o.call op hi.hdel
  rw [hi.hown] at h1 h2 h3 h4 ht
  rw [hi.htime] at ht
  have hc := step_call f o op now
  rw [← hc] at h1 h2 h3 h4 ht hd
  by_cases hcan : op = .cancel ∧ refused o.call = none
  · obtain ⟨rfl, hr⟩ := hcan
    have hb := (refused_iff _).mp hr
    rw [hi.hcanc, hi.hcalled] at hb
    have ha : (ask own a .cancel).cancelled = true := by
      show (if a.cancelled || a.called then a else { a with cancelled := true }).cancelled = true
      rw [hb]; rfl
    have he : DelayedCall.step o.call .cancel = ({ o.call with cancelled := true }, [.canceller], none) := by
      simp only [DelayedCall.step, hr]
    refine ⟨?_, ?_, ht, h1, h2, h3, h4, hd, ?_, ?_⟩
    · unfold DelayedCallStr.step; rw [he]; dsimp only; split <;> exact hi.hident
    · unfold DelayedCallStr.step; rw [he]; dsimp only; split <;> exact hi.hcreator
    · show _ = if (ask own a .cancel).cancelled = true then none else some d
      rw [ha]; unfold DelayedCallStr.step; rw [he]; rfl
    · show _ = ((ask own a .cancel).cancelled && _)
      rw [ha]
      have hso := hi.hstr
      have hca : a.cancelled = false := by cases hx : a.cancelled <;> simp_all
      simp only [hca, Bool.false_and] at hso
      unfold DelayedCallStr.step; rw [he]; dsimp only
      rw [hi.hcreator]
      cases creator with
      | none => simpa using hso
      | some l => rfl
  · have hsame : DelayedCallStr.step f o op now = { o with call := (DelayedCall.step o.call op).1 } := by
      unfold DelayedCallStr.step
      dsimp only
      split
      · rename_i heq
        exfalso
        apply hcan
        refine ⟨rfl, ?_⟩
        cases hr : refused o.call with
        | none => rfl
        | some e => simp only [DelayedCall.step, hr] at heq; cases heq
      · rfl
    have hcc : (ask own a op).cancelled = a.cancelled := by
      cases op with
      | cancel =>
        have : refused o.call ≠ none := fun hr => hcan ⟨rfl, hr⟩
        have hb : (a.cancelled || a.called) = true := by
          cases hb : (a.cancelled || a.called)
          · exact absurd ((refused_iff _).mpr (by rw [hi.hcanc, hi.hcalled]; exact hb)) this
          · rfl
        simp only [ask, hb, if_true]
      | reset => simp only [ask]; split <;> rfl
      | delay => simp only [ask]; split <;> rfl
      | activate => rfl
      | made => rfl
    refine ⟨?_, ?_, ht, h1, h2, h3, h4, hd, ?_, ?_⟩
    · rw [hsame]; exact hi.hident
    · rw [hsame]; exact hi.hcreator
    · rw [hsame]; show o.desc = if (ask own a op).cancelled = true then none else some d
      rw [hcc]; exact hi.hdesc
    · rw [hsame]; show o.str.isSome = ((ask own a op).cancelled && _)
      rw [hcc]; exact hi.hstr

theorem Inv.run {ident : List Nat} {creator : Option (List (List Nat))} {d : Desc} {own : Bool} {s : Int × Asked} {o : Obj}
    (hi : Inv ident creator d own s o) (f : Int → List Nat) (ops : List (Op × Int)) :
    Inv ident creator d own (history own s (ops.map Prod.fst)) (run f o ops) := by
  induction ops generalizing s o with
  | nil => exact hi
  | cons p ops ih => exact ih (hi.step f p.1 p.2)

theorem Inv.new (ident : List Nat) (time : Int) (own : Bool) (d : Desc) (creator : Option (List (List Nat))) :
    Inv ident creator d own (time, ⟨time, false, false⟩) (new ident time own d creator) :=
  ⟨rfl, rfl, rfl, by simp [getTime, DelayedCallStr.new, DelayedCall.new], rfl, rfl, rfl, by simp [DelayedCallStr.new, DelayedCall.new], rfl, rfl⟩

/-- **C117.**  After any history, the text of a call without `debug` tells the seconds until the time that the owner was told,
whether the call was made and whether it was cancelled, and the call itself as long as it is not cancelled. -/
theorem str_spec (f : Int → List Nat) (ident : List Nat) (time : Int) (own : Bool) (d : Desc) (ops : List (Op × Int)) (now : Int) :
    Text f ident ((history own (time, ⟨time, false, false⟩) (ops.map Prod.fst)).1 - now)
      (asked own ⟨time, false, false⟩ (ops.map Prod.fst)).called
      (if (asked own ⟨time, false, false⟩ (ops.map Prod.fst)).cancelled then none else some d)
      (toStr f (run f (new ident time own d none) ops) now) := by
  have hi := (Inv.new ident time own d none).run f ops
  rw [← history_asked own (ops.map Prod.fst) time ⟨time, false, false⟩]
  generalize history own (time, ⟨time, false, false⟩) (ops.map Prod.fst) = s at hi ⊢
  generalize run f (new ident time own d none) ops = o at hi ⊢
  have hstr : o.str = none := by
    have := hi.hstr
    simpa using this
  unfold toStr
  rw [hstr]
  dsimp only
  rw [hi.hident, hi.hcreator, hi.htime, hi.hcanc, hi.hcalled, hi.hdesc, flag_eq, flag_eq]
  obtain ⟨h, t, ca, cd⟩ := s
  cases ca with
  | false =>
    obtain ⟨w, hw, he⟩ := callText_written d
    have := Text.pending (showSeconds := f) (ident := ident) (seconds := h - now) (called := cd) d w hw
    simp only [Bool.false_eq_true, if_false, he]
    refine cast (congrArg _ ?_) this
    simp only [List.append_assoc]
    rfl
  | true =>
    have := Text.cancelled (showSeconds := f) (ident := ident) (seconds := h - now) (called := cd)
    simp only [if_true]
    refine cast (congrArg _ ?_) this
    simp only [List.append_assoc]
    rfl

/-- The text of a call with `debug`: the call is always there, and where it was created. -/
def DebugText (f : Int → List Nat) (ident : List Nat) (seconds : Int) (called cancelled : Bool) (d : Desc) (stack : List (List Nat))
    (t : List Nat) : Prop :=
  ∃ s, Written d s ∧ t = txt "<DelayedCall " ++ ident ++ txt " [" ++ f seconds ++ txt "s] called=" ++ flagText called ++
    txt " cancelled=" ++ flagText cancelled ++ txt " " ++ s ++ txt "\n\ntraceback at creation: \n\n" ++ joinSep (txt "    ") stack ++ txt ">"

/-- **C117**, with `debug`: as long as the call is not cancelled the text tells where it was created as well. -/
theorem str_debug (f : Int → List Nat) (ident : List Nat) (time : Int) (own : Bool) (d : Desc) (stack : List (List Nat))
    (ops : List (Op × Int)) (now : Int) (hc : (asked own ⟨time, false, false⟩ (ops.map Prod.fst)).cancelled = false) :
    DebugText f ident ((history own (time, ⟨time, false, false⟩) (ops.map Prod.fst)).1 - now)
      (asked own ⟨time, false, false⟩ (ops.map Prod.fst)).called false d stack
      (toStr f (run f (new ident time own d (some stack)) ops) now) := by
  have hi := (Inv.new ident time own d (some stack)).run f ops
  rw [← history_asked own (ops.map Prod.fst) time ⟨time, false, false⟩] at hc ⊢
  generalize history own (time, ⟨time, false, false⟩) (ops.map Prod.fst) = s at hi hc ⊢
  generalize run f (new ident time own d (some stack)) ops = o at hi ⊢
  have hstr : o.str = none := by
    have := hi.hstr
    rw [hc] at this
    simpa using this
  unfold toStr
  rw [hstr]
  dsimp only
  rw [hi.hident, hi.hcreator, hi.htime, hi.hcanc, hi.hcalled, hi.hdesc, flag_eq, flag_eq, hc]
  obtain ⟨w, hw, he⟩ := callText_written d
  refine ⟨w, hw, ?_⟩
  simp only [Bool.false_eq_true, if_false, he, List.append_assoc]
  rfl

theorem run_append (f : Int → List Nat) (o : Obj) (a b : List (Op × Int)) : run f o (a ++ b) = run f (run f o a) b := by
  induction a generalizing o with
  | nil => rfl
  | cons p a ih => exact ih _

theorem frozen_step (f : Int → List Nat) (o : Obj) (op : Op) (now : Int) (t : List Nat) (hs : o.str = some t)
    (hc : o.call.cancelled = true) : (step f o op now).str = some t ∧ (step f o op now).call.cancelled = true := by
  have hr : refused o.call = some (.other "AlreadyCancelled") := by simp [refused, hc]
  cases op with
  | cancel => simp only [step, DelayedCall.step, hr]; exact ⟨hs, hc⟩
  | reset => simp only [step, DelayedCall.step, hr]; exact ⟨hs, hc⟩
  | delay => simp only [step, DelayedCall.step, hr]; exact ⟨hs, hc⟩
  | activate => exact ⟨hs, hc⟩
  | made => exact ⟨hs, hc⟩

theorem frozen_run (f : Int → List Nat) (ops : List (Op × Int)) (o : Obj) (t : List Nat) (hs : o.str = some t)
    (hc : o.call.cancelled = true) : (run f o ops).str = some t := by
  induction ops generalizing o with
  | nil => exact hs
  | cons p ops ih =>
    obtain ⟨h1, h2⟩ := frozen_step f o p.1 p.2 t hs hc
    exact ih _ h1 h2

/-- **C117**, with `debug`: once the call is cancelled the text is for ever the one of the moment of cancelling. -/
theorem str_debug_cancelled (f : Int → List Nat) (ident : List Nat) (time : Int) (own : Bool) (d : Desc) (stack : List (List Nat))
    (before after : List (Op × Int)) (then_ now : Int)
    (hc : (asked own ⟨time, false, false⟩ (before.map Prod.fst)).cancelled = false)
    (hm : (asked own ⟨time, false, false⟩ (before.map Prod.fst)).called = false) :
    DebugText f ident ((history own (time, ⟨time, false, false⟩) (before.map Prod.fst)).1 - then_) false true d stack
      (toStr f (run f (new ident time own d (some stack)) (before ++ (.cancel, then_) :: after)) now) := by
  rw [run_append]
  have hi := (Inv.new ident time own d (some stack)).run f before
  rw [← history_asked own (before.map Prod.fst) time ⟨time, false, false⟩] at hc hm
  generalize history own (time, ⟨time, false, false⟩) (before.map Prod.fst) = s at hi hc hm ⊢
  generalize run f (new ident time own d (some stack)) before = o at hi ⊢
  have hstr : o.str = none := by
    have := hi.hstr
    rw [hc] at this
    simpa using this
  have hr : refused o.call = none := by simp [refused, hi.hcanc, hi.hcalled, hc, hm]
  obtain ⟨w, hw, he⟩ := callText_written d
  refine ⟨w, hw, ?_⟩
  have hcr : o.creator.isSome = true := by rw [hi.hcreator]; rfl
  have hst : step f o .cancel then_ = { o with
      call := { o.call with cancelled := true }
      str := some (toStr f { o with call := { o.call with cancelled := true } } then_)
      desc := none } := by
    simp only [step, DelayedCall.step, hr, hcr, if_true]
  have hf := frozen_run f after (step f o .cancel then_)
    (toStr f { o with call := { o.call with cancelled := true } } then_) (by rw [hst]) (by rw [hst])
  show toStr f (run f (step f o .cancel then_) after) now = _
  have hfin : toStr f (run f (step f o .cancel then_) after) now = toStr f { o with call := { o.call with cancelled := true } } then_ := by
    conv => lhs; unfold toStr
    rw [hf]
  rw [hfin]
  unfold toStr
  dsimp only
  rw [hstr]
  dsimp only
  rw [hi.hident, hi.hcreator, hi.htime, hi.hcalled, hi.hdesc, flag_eq, flag_eq, hc, hm]
  simp only [Bool.false_eq_true, if_false, he, List.append_assoc]
  rfl

/-! ## The seconds and the time of the call -/

theorem told_le (own : Bool) (os : List Op) (h : Int) (a : Asked) (hle : h ≤ a.time) :
    (history own (h, a) os).1 ≤ (history own (h, a) os).2.time := by
  induction os generalizing h a with
  | nil => exact hle
  | cons o os ih =>
    apply ih
    cases o <;> simp only [tell] <;> omega

/-- **C117**, partial: the seconds never exceed those until the call's time, and are those until the call's time (`getTime`) if the
last thing that happened was that the owner activated the delay. -/
theorem str_due_partial (own : Bool) (time : Int) (os : List Op) :
    (history own (time, ⟨time, false, false⟩) os).1 ≤ (asked own ⟨time, false, false⟩ os).time ∧
    (history own (time, ⟨time, false, false⟩) (os ++ [.activate])).1 = (asked own ⟨time, false, false⟩ (os ++ [.activate])).time := by
  constructor
  · rw [← history_asked own os time]
    exact told_le own os time _ (Int.le_refl _)
  · rw [← history_asked own (os ++ [Op.activate]) time]
    generalize (⟨time, false, false⟩ : Asked) = a
    generalize time = h
    induction os generalizing h a with
    | nil => rfl
    | cons o os ih => exact ih _ _

/-- **C117** fails of the seconds: after `delay(5)` the text of a call still tells the ten seconds that it had at first, although its
time is fifteen seconds away. -/
theorem str_delay_fails (f : Int → List Nat) (ident : List Nat) (own : Bool) (d : Desc) :
    getTime (run f (new ident 10 own d none) [(.delay 5, 0)]).call = 15 ∧
    Text f ident 10 false (some d) (toStr f (run f (new ident 10 own d none) [(.delay 5, 0)]) 0) :=
  ⟨by rfl, str_spec f ident 10 own d [(.delay 5, 0)] 0⟩

/-! ## Examples -/

/-- A text for a number of seconds of one digit; it serves the examples. -/
def secondsText (n : Int) : List Nat := if n < 0 then txt "-" ++ [48 + n.natAbs % 10] else [48 + n.natAbs % 10]

def exampleDesc : Desc := ⟨.method (txt "Timer") (txt "fire"), [txt "1", txt "'a'"], [(txt "k", txt "2")]⟩

example : toStr secondsText (run secondsText (new (txt "77") 10 true exampleDesc none) []) 3
    = txt "<DelayedCall 77 [7s] called=0 cancelled=0 Timer.fire(1, 'a', k=2)>" := by decide +kernel

example : toStr secondsText (run secondsText (new (txt "77") 10 true exampleDesc none) [(.delay 5, 4), (.cancel, 5)]) 6
    = txt "<DelayedCall 77 [4s] called=0 cancelled=1>" := by decide +kernel

example : toStr secondsText (run secondsText (new (txt "77") 10 true exampleDesc (some [txt "a\n", txt "b\n"])) [(.cancel, 5), (.activate, 6)]) 9
    = txt "<DelayedCall 77 [5s] called=0 cancelled=1 Timer.fire(1, 'a', k=2)\n\ntraceback at creation: \n\na\n    b\n>" := by
  decide +kernel

example : (asked true ⟨10, false, false⟩ [.delay 3, .reset 0 2 4]).cancelled = false ∧
    history true (10, ⟨10, false, false⟩) [.delay 3, .reset 0 2 4] = (6, ⟨6, false, false⟩) := by
  exact ⟨by rfl, by rfl⟩

end Verif.DelayedCallStr
