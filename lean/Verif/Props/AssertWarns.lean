import Verif.Model.AssertWarns
/-!
# C87: `failUnlessWarns`

`Step` and `steps` describe a function under test by the warnings it gives, in order, and its outcome.
-/
namespace Verif.AssertWarns
open Verif.Py

/-- A warning given through `warnings.warn`, or through `warnings.warn_explicit` (with or without keyword arguments). -/
inductive Step where
  | warn (args : List Val)
  | explicit (args : List Val)
  | explicitKw (args : List Val)
  deriving DecidableEq

/-- A function giving these warnings, then ending in `out`; an exception of `warn_explicit` is not caught. -/
def steps : List Step → Except PyErr Val → Callable
  | [], out => fun w => (w, out)
  | .warn a :: s, out => fun w => steps s out (warn a w)
  | .explicit a :: s, out => fun w =>
    match warnExplicit a false w with
    | (w, .ok _) => steps s out w
    | (w, .error e) => (w, .error e)
  | .explicitKw a :: s, out => fun w =>
    match warnExplicit a true w with
    | (w, .ok _) => steps s out w
    | (w, .error e) => (w, .error e)

/-- The warnings given through `warn_explicit`. -/
def explicits (s : List Step) : List (List Val) :=
  s.filterMap (fun | .explicit a => some a | _ => none)

/-- The warnings given through `warn`. -/
def warns (s : List Step) : List (List Val) :=
  s.filterMap (fun | .warn a => some a | _ => none)

/-- What is required of the warnings recorded: there is one, all have the message and the category, and the file of the first
is the file named or a prefix of its name. -/
def Expected (category message : Val) (filename : List Nat) (l : List (List Val)) : Prop :=
  (∀ a ∈ l, a.take 2 = [message, category]) ∧
  ∃ g line rest more, l = ([message, category, .str g, line] ++ rest) :: more ∧ ∃ t, filename = g ++ t

theorem check_iff {category message : Val} {filename : List Nat} {l : List (List Val)} {result v : Val} :
    check category message filename l result = .ok v ↔ Expected category message filename l ∧ v = result := by
  unfold check Expected
  cases l with
  | nil => simp
  | cons first others =>
    simp only
    constructor
    · intro h
      split at h
      · cases h
      · rename_i hsame
        split at h
        · rename_i m c f ln hfirst
          split at h
          · cases h
          · rename_i hm
            split at h
            · cases h
            · rename_i hc
              split at h
              · cases h
              · rename_i g
                split at h
                · rename_i hg
                  cases h
                  simp only [ne_eq, Decidable.not_not] at hm hc
                  subst hm hc
                  have hdec : first = [m, c, .str g, ln] ++ first.drop 4 := by
                    rw [← hfirst, List.take_append_drop]
                  have h2 : first.take 2 = [m, c] := by rw [hdec]; rfl
                  refine ⟨⟨?_, g, ln, first.drop 4, others, by rw [← hdec], ?_⟩, rfl⟩
                  · intro a ha
                    rcases List.mem_cons.1 ha with rfl | ha
                    · exact h2
                    · simp only [List.any_eq_true, not_exists, not_and, bne_iff_ne, ne_eq, Decidable.not_not] at hsame
                      rw [hsame a ha, h2]
                  · obtain ⟨t, ht⟩ := hg; exact ⟨t, ht.symm⟩
                · cases h
        · cases h
    · rintro ⟨⟨hall, g, ln, rest, more, he, t, ht⟩, rfl⟩
      cases he
      have h2 : (([message, category, .str g, ln] ++ rest).take 2) = [message, category] := rfl
      rw [if_neg (by
        simp only [List.any_eq_true, not_exists, not_and, bne_iff_ne, ne_eq, Decidable.not_not]
        intro a ha
        rw [h2]; exact hall a (List.mem_cons_of_mem _ ha))]
      have h4 : (([message, category, .str g, ln] ++ rest).take 4) = [message, category, .str g, ln] := rfl
      rw [h4]
      simp [ht]

/-- **C87**: whatever the function does, and however it ends, `warnings.warn_explicit` is afterwards what it was. -/
theorem restored (category message : Val) (filename : List Nat) (f : Callable) (w : World) :
    (failUnlessWarns category message filename f w).1.hook = w.hook := by
  unfold failUnlessWarns
  simp only
  split <;> rfl

/-- An exception of the function is passed on. -/
theorem raised (category message : Val) (filename : List Nat) {f : Callable} {w : World} {e : PyErr}
    (h : (f { w with hook := .recorder w.shown.length, shown := w.shown ++ [[]] }).2 = .error e) :
    (failUnlessWarns category message filename f w).2 = .error e := by
  unfold failUnlessWarns
  simp only [h]

theorem modify_at {α : Type} (l m : List α) (x : α) (f : α → α) : (l ++ x :: m).modify l.length f = l ++ f x :: m := by
  induction l with
  | nil => rfl
  | cons a l ih => simp [ih]

/-- What the recorder has seen: the calls through the attribute, in order; the others go to the standard library. -/
theorem steps_recorded {s : List Step} (hkw : ∀ a, .explicitKw a ∉ s) (out : Except PyErr Val) (pre post : List (List (List Val)))
    (l d : List (List Val)) :
    steps s out ⟨.recorder pre.length, pre ++ l :: post, d⟩ =
      (⟨.recorder pre.length, pre ++ (l ++ explicits s) :: post, d ++ warns s⟩, out) := by
  induction s generalizing l d with
  | nil => simp [steps, explicits, warns]
  | cons a s ih =>
    have ih := ih (fun a h => hkw a (List.mem_cons_of_mem _ h))
    cases a with
    | warn a =>
      simp only [steps, warn]
      rw [ih]
      simp [explicits, warns]
    | explicit a =>
      simp only [steps, warnExplicit, Bool.false_eq_true, if_false]
      rw [modify_at, ih]
      simp [explicits, warns]
    | explicitKw a => exact absurd (by simp) (hkw a)

/-- **C87, partial.**  Of a function giving warnings, only those given through `warnings.warn_explicit` count: the assertion
succeeds, with the function's result, exactly if there is one, all have the expected message and category, and the first comes
from the expected file, or one with a shorter name.  An enclosing `failUnlessWarns` sees nothing of them. -/
theorem warns_iff_partial {category message : Val} {filename : List Nat} {s : List Step} (hkw : ∀ a, .explicitKw a ∉ s)
    (result v : Val) (w : World) :
    ((failUnlessWarns category message filename (steps s (.ok result)) w).2 = .ok v ↔
      Expected category message filename (explicits s) ∧ v = result) ∧
    (failUnlessWarns category message filename (steps s (.ok result)) w).1 =
      ⟨w.hook, w.shown ++ [explicits s], w.delivered ++ warns s⟩ := by
  unfold failUnlessWarns
  simp only
  rw [steps_recorded hkw]
  simp only [List.nil_append]
  refine ⟨?_, trivial⟩
  have : (w.shown ++ [explicits s]).getD w.shown.length [] = explicits s := by simp
  rw [this]
  exact check_iff

/-- The other failures are `AssertionError`s, if the arguments of `warn_explicit` are as documented. -/
theorem assertion {category message : Val} {filename : List Nat} {l : List (List Val)} {result : Val}
    (hl : ∀ a ∈ l, ∃ m c g ln rest, a = [m, c, .str g, ln] ++ rest) (h : ¬ Expected category message filename l) :
    check category message filename l result = .error .assertionError := by
  cases hc : check category message filename l result with
  | ok v => exact absurd (check_iff.1 hc).1 h
  | error e =>
    unfold check at hc
    cases l with
    | nil => simp only at hc; rw [← hc]
    | cons first others =>
      obtain ⟨m, c, g, ln, rest, rfl⟩ := hl first (by simp)
      have h4 : (([m, c, .str g, ln] ++ rest).take 4) = [m, c, .str g, ln] := rfl
      simp only [h4] at hc
      repeat' split at hc
      all_goals first | (cases hc; rfl) | (cases hc)

def m0 : Val := .str [109]
def c0 : Val := .obj 1
def line0 : Val := .obj 7

/-- Two equal warnings, of which the second comes from elsewhere, from `/a/b.py` for the expected `/a/b.pyc`. -/
example : (∀ a, Step.explicitKw a ∉ [.explicit [m0, c0, .str [47, 97], line0], .explicit [m0, c0, .str [120], line0]]) ∧
    Expected c0 m0 [47, 97, 99] (explicits [.explicit [m0, c0, .str [47, 97], line0], .explicit [m0, c0, .str [120], line0]]) ∧
    ¬ Expected c0 m0 [47, 97, 99] [] := by
  refine ⟨by simp, ⟨by decide, [47, 97], line0, [], _, rfl, [99], rfl⟩, ?_⟩
  rintro ⟨-, g, l, r, m, h, -⟩
  cases h

/-- C87 as stated is false: a warning given in the usual way, by `warnings.warn`, is not seen… -/
theorem warn_unseen_fails (result : Val) (w : World) :
    (failUnlessWarns c0 m0 [47] (steps [.warn [m0, c0, .str [47], line0]] (.ok result)) w).2 = .error .assertionError := by
  unfold failUnlessWarns
  simp [steps, warn, check]

/-- …a warning from a file with a shorter name, such as the empty one, passes… -/
theorem any_file_fails (filename : List Nat) (result : Val) (w : World) :
    (failUnlessWarns c0 m0 filename (steps [.explicit [m0, c0, .str [], line0]] (.ok result)) w).2 = .ok result :=
  ((warns_iff_partial (by simp) result result w).1).2 ⟨⟨by simp [explicits], [], line0, [], [], rfl, filename, rfl⟩, rfl⟩

/-- …of several warnings only the first has to come from the file… -/
theorem other_file_fails (filename other : List Nat) (result : Val) (w : World) :
    (failUnlessWarns c0 m0 filename (steps [.explicit [m0, c0, .str filename, line0], .explicit [m0, c0, .str other, line0]]
      (.ok result)) w).2 = .ok result :=
  ((warns_iff_partial (by simp) result result w).1).2
    ⟨⟨by simp [explicits], filename, line0, [], _, rfl, [], by simp⟩, rfl⟩

/-- …and a call with keyword arguments raises `TypeError` in the function. -/
theorem keywords_fails (category message : Val) (filename : List Nat) (a : List Val) (s : List Step) (out : Except PyErr Val)
    (w : World) :
    (failUnlessWarns category message filename (steps (.explicitKw a :: s) out) w).2 = .error .typeError := by
  apply raised
  simp [steps, warnExplicit]

/-- Nested assertions work: the inner one takes its warnings, the outer one gets the rest. -/
theorem nested {filename : List Nat} (result : Val) (w : World) {s t : List Step} (hs : ∀ a, .explicitKw a ∉ s)
    (ht : ∀ a, .explicitKw a ∉ t) (hi : Expected c0 m0 filename (explicits s)) {category message : Val} {file : List Nat} :
    (failUnlessWarns category message file (fun w =>
      let r := failUnlessWarns c0 m0 filename (steps s (.ok result)) w
      steps t r.2 r.1) w).2 = .ok result ↔ Expected category message file (explicits t) := by
  have e1 := (warns_iff_partial (category := c0) (message := m0) (filename := filename) hs result result
    ⟨.recorder w.shown.length, w.shown ++ [[]], w.delivered⟩)
  have e2 := e1.1.2 ⟨hi, rfl⟩
  have e3 := e1.2
  rw [failUnlessWarns]
  simp only [e2, e3]
  rw [List.append_assoc, List.singleton_append, steps_recorded ht]
  simp only [List.nil_append]
  have : (w.shown ++ explicits t :: [explicits s]).getD w.shown.length [] = explicits t := by simp
  rw [this, check_iff]
  simp

/-- All warnings a function gives, in order. -/
def allWarnings (s : List Step) : List (List Val) :=
  s.map (fun | .warn a => a | .explicit a => a | .explicitKw a => a)

/-- Outside of every `failUnlessWarns` all warnings go to the standard library, in order. -/
theorem steps_outside (s : List Step) (out : Except PyErr Val) (w : World) (hw : ∀ i, w.hook ≠ .recorder i) :
    steps s out w = ({ w with delivered := w.delivered ++ allWarnings s }, out) := by
  have hx : ∀ (a : List Val) (kw : Bool) (w : World), (∀ i, w.hook ≠ .recorder i) →
      warnExplicit a kw w = ({ w with delivered := w.delivered ++ [a] }, .ok ()) := by
    intro a kw w hw
    unfold warnExplicit
    split
    · rename_i i h; exact absurd h (hw i)
    · rfl
  induction s generalizing w with
  | nil => simp [steps, allWarnings]
  | cons a s ih =>
    cases a with
    | warn a =>
      simp only [steps, warn]
      rw [ih _ (by exact hw)]
      simp [allWarnings]
    | explicit a =>
      simp only [steps, hx a false w hw]
      rw [ih _ (by exact hw)]
      simp [allWarnings]
    | explicitKw a =>
      simp only [steps, hx a true w hw]
      rw [ih _ (by exact hw)]
      simp [allWarnings]

/-- **C87**: what the tested function gave through `warn_explicit` is kept from the standard library, and all that is given after the
assertion, whether it held or not, reaches it. -/
theorem after_assertion {category message : Val} {filename : List Nat} {s : List Step} (hkw : ∀ a, .explicitKw a ∉ s)
    (result : Val) (w : World) (hw : ∀ i, w.hook ≠ .recorder i) (t : List Step) (out : Except PyErr Val) :
    (steps t out (failUnlessWarns category message filename (steps s (.ok result)) w).1).1.delivered =
      w.delivered ++ warns s ++ allWarnings t := by
  rw [(warns_iff_partial (category := category) (message := message) (filename := filename) hkw result result w).2]
  rw [steps_outside t out _ (by exact hw)]

end Verif.AssertWarns
