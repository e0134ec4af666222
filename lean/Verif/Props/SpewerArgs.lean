import Verif.Model.SpewerArgs
import Mathlib.Data.Nat.Bitwise
/-!
# C88: the arguments shown for a call

`Signature` is a function definition; `code` is what the compiler makes of it: the names of the parameters come first in
`co_varnames`, positional ones, then keyword-only ones, then `*args`, then `**kwargs`.
-/
namespace Verif.Spewer
open Verif.Py

structure Signature where
  positional : List (List Nat)
  kwonly : List (List Nat)
  varargs : Option (List Nat)
  kwargs : Option (List Nat)
  /-- the other local variables -/
  others : List (List Nat)
  /-- the other flags -/
  flags : Nat

/-- The parameters. -/
def Signature.params (s : Signature) : List (List Nat) := s.positional ++ s.kwonly ++ s.varargs.toList ++ s.kwargs.toList

structure Signature.OK (s : Signature) : Prop where
  distinct : (s.params ++ s.others).Nodup
  noVarargs : s.flags.testBit 2 = false
  noKwargs : s.flags.testBit 3 = false

def code (s : Signature) : Code where
  argcount := s.positional.length
  flags := (s.flags ||| (if s.varargs.isSome then 4 else 0)) ||| (if s.kwargs.isSome then 8 else 0)
  varnames := s.params ++ s.others

theorem and_pow_ne (n k : Nat) : n &&& 2 ^ k ≠ 0 ↔ n.testBit k = true := by
  rw [Nat.and_two_pow]
  cases n.testBit k <;> simp

theorem flags_four {s : Signature} (h : s.OK) : ((code s).flags &&& 4 ≠ 0) ↔ s.varargs.isSome = true := by
  rw [show 4 = 2 ^ 2 from rfl, and_pow_ne]
  unfold code
  simp only [Nat.testBit_or, h.noVarargs]
  cases s.varargs.isSome <;> cases s.kwargs.isSome <;> decide

theorem flags_eight {s : Signature} (h : s.OK) : ((code s).flags &&& 8 ≠ 0) ↔ s.kwargs.isSome = true := by
  rw [show 8 = 2 ^ 3 from rfl, and_pow_ne]
  unfold code
  simp only [Nat.testBit_or, h.noKwargs]
  cases s.varargs.isSome <;> cases s.kwargs.isSome <;> decide

theorem extractLoop_eq {co : Code} {l : Dict (List Nat) Local} {pre mid post : List (List Nat)}
    (hv : co.varnames = pre ++ mid ++ post) (hd : (pre ++ mid ++ post).Nodup) (r : Dict (List Nat) Local)
    (hr : ∀ n ∈ r.keys, n ∈ pre) :
    extractLoop co l mid.length pre.length r =
      .ok (r ++ mid.map (fun n => (n, (l.get? n).getD (.str undefined)))) := by
  induction mid generalizing pre r with
  | nil => simp [extractLoop]
  | cons a mid ih =>
    have hget : co.varnames[pre.length]? = some a := by rw [hv]; simp
    simp only [List.length_cons, extractLoop, hget]
    have ha : a ∉ pre := by
      intro h
      simp only [List.append_assoc, List.cons_append] at hd
      exact (List.nodup_append.1 hd).2.2 a h a (by simp) rfl
    have hset : r.set a ((l.get? a).getD (.str undefined)) = r ++ [(a, (l.get? a).getD (.str undefined))] :=
      Dict.set_of_not_mem _ (fun h => ha (hr a h))
    rw [hset]
    have := ih (pre := pre ++ [a]) (by simpa using hv) (by simpa using hd) (r ++ [(a, (l.get? a).getD (.str undefined))])
      (by
        intro n hn
        simp only [Dict.keys, List.map_append, List.map_cons, List.map_nil, List.mem_append, List.mem_singleton] at hn ⊢
        rcases hn with hn | hn
        · exact Or.inl (hr n hn)
        · exact Or.inr hn)
    simp only [List.length_append, List.length_singleton] at this
    rw [this]
    simp

/-- What `extractArgs` reports: the values of the first so many variables. -/
theorem extractArgs_first {s : Signature} (h : s.OK) (l : Dict (List Nat) Local) :
    extractArgs (code s) l = .ok (((s.params ++ s.others).take
      (s.positional.length + s.varargs.toList.length + s.kwargs.toList.length)).map
        (fun n => (n, (l.get? n).getD (.str undefined)))) := by
  have hlen : s.positional.length + s.varargs.toList.length + s.kwargs.toList.length ≤ (s.params ++ s.others).length := by
    unfold Signature.params; simp only [List.length_append]; omega
  have hn : (let n := (code s).argcount
      let n := if (code s).flags &&& 4 ≠ 0 then n + 1 else n
      if (code s).flags &&& 8 ≠ 0 then n + 1 else n) =
      s.positional.length + s.varargs.toList.length + s.kwargs.toList.length := by
    simp only [flags_four h, flags_eight h]
    show (if s.kwargs.isSome = true then (if s.varargs.isSome = true then s.positional.length + 1 else s.positional.length) + 1
      else (if s.varargs.isSome = true then s.positional.length + 1 else s.positional.length)) = _
    cases s.varargs <;> cases s.kwargs <;> simp
  unfold extractArgs
  simp only at hn ⊢
  rw [hn]
  generalize s.positional.length + s.varargs.toList.length + s.kwargs.toList.length = n at *
  have := extractLoop_eq (co := code s) (l := l) (pre := []) (mid := (s.params ++ s.others).take n)
    (post := (s.params ++ s.others).drop n) (by simp [code]) (by simpa using h.distinct) [] (by simp [Dict.keys])
  rw [List.length_take, Nat.min_eq_left hlen] at this
  simpa using this

/-- **C88, partial.**  For a function without keyword-only parameters, the arguments shown are the parameters, in order, with
their current values, and nothing else. -/
theorem extractArgs_partial {s : Signature} (h : s.OK) (hk : s.kwonly = []) (l : Dict (List Nat) Local) :
    ∃ r, extractArgs (code s) l = .ok r ∧ r.keys = s.params ∧
      ∀ n ∈ s.params, r.get? n = some (match l.get? n with | some v => v | none => .str undefined) := by
  have htake : (s.params ++ s.others).take (s.positional.length + s.varargs.toList.length + s.kwargs.toList.length) =
      s.params := by
    apply List.take_left'
    unfold Signature.params
    simp [hk]
    omega
  refine ⟨_, extractArgs_first h l, ?_, ?_⟩
  · rw [htake]
    simp [Dict.keys, Function.comp_def]
  · rw [htake]
    have hd : s.params.Nodup := (List.nodup_append.1 h.distinct).1
    generalize s.params = ps at hd
    intro n hn
    induction ps with
    | nil => cases hn
    | cons p ps ih =>
      simp only [List.map_cons, Dict.get?]
      by_cases hp : p = n
      · subst hp; rw [if_pos rfl]; cases l.get? p <;> rfl
      · rw [if_neg hp]
        exact ih (List.nodup_cons.1 hd).2 ((List.mem_cons.1 hn).resolve_left (fun e => hp e.symm))

/-- `def f(a, *b, **c)` with a local variable `d`, and `a` deleted. -/
example : (⟨[[97]], [], some [98], some [99], [[100]], 67⟩ : Signature).OK ∧
    extractArgs (code ⟨[[97]], [], some [98], some [99], [[100]], 67⟩) [([98], .obj 1), ([99], .obj 2), ([100], .obj 3)] =
      .ok [([97], .str undefined), ([98], .obj 1), ([99], .obj 2)] :=
  ⟨⟨by decide, by decide, by decide⟩, rfl⟩

/-- C88 as stated is false: with keyword-only parameters, as in `def f(a, *b, k)`, as many of the last ones are missing. -/
theorem kwonly_fails {s : Signature} (h : s.OK) (l : Dict (List Nat) Local) :
    ∃ r, extractArgs (code s) l = .ok r ∧ r.keys = s.params.take (s.params.length - s.kwonly.length) := by
  refine ⟨_, extractArgs_first h l, ?_⟩
  have e : (s.params ++ s.others).take (s.positional.length + s.varargs.toList.length + s.kwargs.toList.length) =
      s.params.take (s.params.length - s.kwonly.length) := by
    have hl : s.params.length = s.positional.length + s.kwonly.length + s.varargs.toList.length + s.kwargs.toList.length := by
      unfold Signature.params; simp only [List.length_append]
    rw [hl, List.take_append_of_le_length (by omega)]
    congr 1
    omega
  rw [e]
  simp [Dict.keys, Function.comp_def]

example : (⟨[[97]], [[107]], some [98], none, [], 67⟩ : Signature).OK ∧
    (⟨[[97]], [[107]], some [98], none, [], 67⟩ : Signature).params = [[97], [107], [98]] ∧
    extractArgs (code ⟨[[97]], [[107]], some [98], none, [], 67⟩) [([97], .obj 1), ([107], .obj 2), ([98], .obj 3)] =
      .ok [([97], .obj 1), ([107], .obj 2)] :=
  ⟨⟨by decide, by decide, by decide⟩, by decide, rfl⟩

end Verif.Spewer
