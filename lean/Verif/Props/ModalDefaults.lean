import Verif.Model.ModalDefaults
import Verif.Props.Modal
/-!
# C131: modes that define no `__enter__` or `__exit__`

`mode` has an `__enter__` and an `__exit__` that do nothing, for modes to override. The full claim, that a mode has the methods that its
class has, and with it these two, is false: only the `__dict__` of a mode class counts (a comment in `modal.py:52-54` says so).
-/
namespace Verif.Modal
open Verif.Py

/-- Every mode class has an `__enter__` and an `__exit__`, so with these a transition would never lack one. -/
theorem mode_has_both (c : ModeClass) : (c.get nEnter).isSome ∧ (c.get nExit).isSome := by
  have key : ∀ (ds : List (Dict Name Val)) n, (Dict.get? modeDict n).isSome → (lookup (ds ++ [modeDict]) n).isSome := by
    intro ds n h
    induction ds with
    | nil =>
      unfold lookup
      rw [List.nil_append, List.findSome?_cons]
      cases hg : Dict.get? modeDict n with
      | none => rw [hg] at h; cases h
      | some v => rfl
    | cons d ds ih =>
      unfold lookup at ih ⊢
      rw [List.cons_append, List.findSome?_cons]
      cases Dict.get? d n with
      | none => exact ih
      | some v => rfl
  exact ⟨key (c.own :: c.between) nEnter rfl, key (c.own :: c.between) nExit rfl⟩

/-- **C131, partial**: what a mode class defines itself is what the mode has. -/
theorem own_partial {attrs : Dict Name Val} {k n : Name} {c : ModeClass} {v : Val} (hk : Dict.get? attrs k = some c.val)
    (hn : Dict.get? c.own n = some v) (hc : n ≠ nModule ∧ n ≠ nFile ∧ n ≠ nName) : impl attrs k n = some v ∧ c.get n = some v := by
  constructor
  · unfold impl
    rw [hk]
    simp [ModeClass.val, hc, hn]
  · unfold ModeClass.get lookup
    rw [List.cons_append, List.findSome?_cons, hn]

/-- **C131 fails** in every class: what a mode class inherits, the mode does not have; reading it in that mode raises `AttributeError`
(if other modes define it). -/
theorem inherited_fails {attrs : Dict Name Val} {bases : List Cls} {i : Name} (h : Regular attrs bases i) {k n : Name} {c : ModeClass}
    (hk : Dict.get? attrs k = some c.val) (hn : Dict.get? c.own n = none) (hd : ∃ k v, impl attrs k n = some v) :
    ∃ cls, modalNew attrs bases = .ok cls ∧ ∀ rest inst, Dict.get? inst n = none → modeOf inst i = .str k →
      getattr (cls :: rest) inst n = .error .attributeError := by
  obtain ⟨cls, hc, hx⟩ := modal_dispatch_partial h
  refine ⟨cls, hc, fun rest inst hi hm => ?_⟩
  rw [hx rest n hd inst hi, hm]
  have : impl attrs k n = none := by
    unfold impl
    rw [hk]
    simp [ModeClass.val, hn]
  simp only [dispatch, this]

/-- **C131 fails.** A mode whose class has no `__exit__` of its own cannot be left: every transition raises `AttributeError` and changes
nothing. -/
theorem stranded_fails {mro : List (Dict Name Val)} {i : Name} {exit : Name → Option Val} (hx : Dispatches mro i nExit exit)
    (body : Body) {m : Name} (st : St) (h1 : Dict.get? st.inst nExit = none) (hm : modeOf st.inst i = .str m) (hno : exit m = none)
    (s : Name) (ss : List Name) : transitions mro body (s :: ss) st = (.error .attributeError, st) := by
  have e : transitionTo mro body s st = (.error .attributeError, st) := by
    unfold transitionTo callAttr
    rw [hx st.inst h1, hm]
    simp only [dispatch, hno]
  unfold transitions
  rw [e]

/-- **C131 fails.** A mode whose class has no `__enter__` of its own: the transition into it raises `AttributeError` after the mode has
been changed. -/
theorem entered_fails {mro : List (Dict Name Val)} {i : Name} {exit enter : Name → Option Val} (hx : Dispatches mro i nExit exit)
    (hn : Dispatches mro i nEnter enter) {body : Body} (hq : Quiet body) {m s : Name} {f : Nat} (st : St)
    (h1 : Dict.get? st.inst nExit = none) (h2 : Dict.get? st.inst nEnter = none) (hm : modeOf st.inst i = .str m)
    (hf : exit m = some (.func f)) (hno : enter s = none) :
    ∃ st', transitionTo mro body s st = (.error .attributeError, st') ∧ modeOf st'.inst i = .str s := by
  have q := hq f st.inst
  have t := ((transition_spec hx hn body s st h1).2 m f hm hf).2 q.1 (by rw [q.2 nEnter (by simp), h2])
  refine ⟨_, t.1 hno, ?_⟩
  show modeOf (Dict.set (body f st.inst).2 nMode (.str s)) i = .str s
  unfold modeOf
  rw [Dict.get?_set, if_pos rfl]
  rfl

/-- A class of two modes with a method each, as one would write it: derived from `Modal`, in mode `a`. It cannot change its mode. -/
theorem plain_modes_fails : ∃ base sub : Dict Name Val, modalNew modalAttrs [] = .ok base ∧
    modalNew [(nInitialMode, .str nAlpha), (nAlpha, (ModeClass.mk [(nOne, .func 1)] []).val),
      (nBeta, (ModeClass.mk [(nOne, .func 2)] []).val)] [.mk base []] = .ok sub ∧
    getattr [sub, base] [] nOne = .ok (.bound (.func 1)) ∧
    ∀ body, transitionTo [sub, base] body nBeta ⟨[], []⟩ = (.error .attributeError, ⟨[], []⟩) :=
  ⟨_, _, rfl, rfl, rfl, fun _ => rfl⟩

example : (ModeClass.mk [(nOne, .func 1)] []).get nEnter = some (.func 901) := rfl

/-- The class of `demo` in mode `b`: `one` is inherited by the class of that mode, but not by the mode. -/
example : Regular demo [] nAlpha ∧ Dict.get? demo nBeta = some (ModeClass.mk [(nTwo, .func 3)] [[(nOne, .func 6)]]).val ∧
    (ModeClass.mk [(nTwo, .func 3)] [[(nOne, .func 6)]]).get nOne = some (.func 6) ∧
    (∃ k v, impl demo k nOne = some v) :=
  ⟨demo_regular, rfl, rfl, ⟨nAlpha, _, rfl⟩⟩

end Verif.Modal
