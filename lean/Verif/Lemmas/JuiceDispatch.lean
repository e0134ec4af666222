import Verif.Model.JuiceDispatch
import Verif.Props.JuiceArgs
/-!
# Lemmas about juice dispatch
-/
namespace Verif.JuiceDispatch
open Verif.Py Verif.Juice Verif.JuiceArgs Verif.JuiceRpc

theorem foldl_set_nodup {α κ ν : Type} [DecidableEq κ] (f : α → κ) (g : α → ν) (l : List α) (d : Dict κ ν)
    (h : (Dict.keys d ++ l.map f).Nodup) :
    l.foldl (fun d p => Dict.set d (f p) (g p)) d = d ++ l.map fun p => (f p, g p) := by
  induction l generalizing d with
  | nil => simp
  | cons a l ih =>
    rw [List.map_cons] at h
    have hn : f a ∉ Dict.keys d := by
      intro hm
      exact (List.nodup_append.1 h).2.2 _ hm _ (by simp) rfl
    rw [List.foldl_cons, Dict.set_of_not_mem _ hn, ih]
    · simp
    · have : Dict.keys (d ++ [(f a, g a)]) = Dict.keys d ++ [f a] := by simp [Dict.keys]
      rw [this]
      simpa using h

/-- A command whose error tables map different classes to different codes. -/
structure GoodErrors (c : Cmd) : Prop where
  classes : ((c.errors ++ c.fatalErrors).map Prod.fst).Nodup
  codes : ((c.errors ++ c.fatalErrors).map Prod.snd).Nodup

theorem allErrors_eq {c : Cmd} (h : GoodErrors c) : c.allErrors = c.errors ++ c.fatalErrors := by
  have h1 := h.classes
  unfold Cmd.allErrors
  rw [← List.foldl_append, foldl_set_nodup Prod.fst Prod.snd]
  · simp
  · simpa [Dict.keys] using h1

theorem reverseErrors_eq {c : Cmd} (h : GoodErrors c) :
    c.reverseErrors = (c.errors ++ c.fatalErrors).map fun p => (p.2, p.1) := by
  have h1 := h.codes
  unfold Cmd.reverseErrors
  rw [← List.foldl_append, foldl_set_nodup Prod.snd Prod.fst]
  · simp
  · simpa [Dict.keys] using h1

/-- Only declared classes occur in `allErrors`. -/
theorem mem_allErrors {c : Cmd} {cls : Cls} (h : cls ∈ Dict.keys c.allErrors) :
    cls ∈ (c.errors ++ c.fatalErrors).map Prod.fst := by
  have key : ∀ (l : List (Cls × Str)) (d : Dict Cls Str), cls ∈ Dict.keys (l.foldl (fun d p => Dict.set d p.1 p.2) d) →
      cls ∈ Dict.keys d ∨ cls ∈ l.map Prod.fst := by
    intro l
    induction l with
    | nil => intro d h; exact .inl h
    | cons a l ih =>
      intro d h
      rcases ih _ h with h | h
      · by_cases ha : a.1 ∈ Dict.keys d
        · rw [Dict.keys_set_of_mem _ ha] at h; exact .inl h
        · simp only at h; rw [Dict.set_of_not_mem _ ha] at h
          simp only [Dict.keys, List.map_append, List.mem_append, List.map_cons, List.map_nil, List.mem_singleton] at h
          rcases h with h | h
          · exact .inl h
          · exact .inr (by simp [h])
      · exact .inr (List.mem_cons_of_mem _ h)
  unfold Cmd.allErrors at h
  rw [← List.foldl_append] at h
  rcases key _ _ h with h | h
  · cases h
  · exact h

/-- Only declared codes occur in `reverseErrors`. -/
theorem mem_reverseErrors {c : Cmd} {code : Str} (h : code ∈ Dict.keys c.reverseErrors) :
    code ∈ (c.errors ++ c.fatalErrors).map Prod.snd := by
  have key : ∀ (l : List (Cls × Str)) (d : Dict Str Cls), code ∈ Dict.keys (l.foldl (fun d p => Dict.set d p.2 p.1) d) →
      code ∈ Dict.keys d ∨ code ∈ l.map Prod.snd := by
    intro l
    induction l with
    | nil => intro d h; exact .inl h
    | cons a l ih =>
      intro d h
      rcases ih _ h with h | h
      · by_cases ha : a.2 ∈ Dict.keys d
        · rw [Dict.keys_set_of_mem _ ha] at h; exact .inl h
        · simp only at h; rw [Dict.set_of_not_mem _ ha] at h
          simp only [Dict.keys, List.map_append, List.mem_append, List.map_cons, List.map_nil, List.mem_singleton] at h
          rcases h with h | h
          · exact .inl h
          · exact .inr (by simp [h])
      · exact .inr (List.mem_cons_of_mem _ h)
  unfold Cmd.reverseErrors at h
  rw [← List.foldl_append] at h
  rcases key _ _ h with h | h
  · cases h
  · exact h

/-- The situation in which `react` calls the responder `m` of `c` with the keywords `kw`: the name leads to it, it may be
called without a namespace, and the arguments can be decoded. -/
def Reaches (U : Uni) (app : App) (box : Box) (m : Nat) (c : Cmd) (kw : Dict Str Obj) : Prop :=
  app.attr (autoDispatchPrefix ++ normalizeCommand U ((Dict.get? box COMMAND).getD [])) = some (.command m c) ∧
  none ∈ c.namespaces ∧
  ∃ kw0, stringsToObjects (textBox box) c.arguments = .ok kw0 ∧ kw = c.extra.foldl (fun d p => Dict.set d p.1 p.2) kw0

theorem dispatch_reaches {U : Uni} {H : Hier} {app : App} {box : Box} {m : Nat} {c : Cmd} {kw : Dict Str Obj}
    (h : Reaches U app box m c kw) :
    dispatchCommand U H app ((Dict.get? box COMMAND).getD []) box none = ([.command m kw],
      .ok (afterRun U H c (app.run m kw))) := by
  obtain ⟨h1, h2, kw0, h3, rfl⟩ := h
  simp only [dispatchCommand, lookupFunction, h1, auto, if_pos h2, doit, h3]

end Verif.JuiceDispatch
