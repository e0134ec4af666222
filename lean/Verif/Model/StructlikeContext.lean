import Verif.Model.Structlike
/-!
# Model of `_contextualize` and of `repr` with it (`epsilon/structlike.py`)

`Structlike.reprV` has one `_RecursiveReprer` from the start.  Here it is looked up in the execution context
(`twisted.python.context`) by each `__repr__`, and made when there is none.  `context.call(ctx, f)` pushes a copy of the
current context updated with `ctx` and pops it when `f` is done, whether or not it raises; `context.get` looks in the
innermost.  The context belongs to the thread; another thread has its own.
-/
namespace Verif.StructlikeContext
open Verif.Py Verif.Structlike

/-- Values that occur in records: as in `Structlike`, and an object whose `repr` is that of another computed inside
`context.call` with a key of its own. -/
inductive CValue where
  | leaf (text : String)
  | bad
  | seq (vs : List CValue)
  | ref (id : Nat)
  | within (key : Nat) (value : Nat) (v : CValue)

structure CObj where
  cls : String
  fields : List (String × Option CValue)

abbrev CHeap := List CObj

/-- Keys of the context: the class `_RecursiveReprer`, or another. -/
inductive Key where
  | reprer
  | other (k : Nat)
  deriving DecidableEq

/-- The stack of contexts, innermost first, and the `_RecursiveReprer` instances made so far, each with its `active`. -/
structure CSt where
  contexts : List (Dict Key Nat)
  reprers : List (List Nat)

/-- A computation: `none` when the recursion did not end within the fuel. -/
abbrev Comp (α : Type) := CSt → Option (Except PyErr α × CSt)

/-- `context.get(key, _NOT_SPECIFIED)` -/
def contextGet (st : CSt) (k : Key) : Option Nat :=
  match st.contexts with
  | [] => none
  | c :: _ => Dict.get? c k

/-- `context.call({key: value}, f)` -/
def contextCall {α : Type} (k : Key) (x : Nat) (f : Comp α) : Comp α := fun st =>
  let top := st.contexts.headD []
  match f { st with contexts := Dict.set top k x :: st.contexts } with
  | none => none
  | some (r, st') => some (r, { st' with contexts := st'.contexts.tail })

/-- `_contextualize(_RecursiveReprer, receiver)` (`structlike.py:36-62`).  It calls itself once it has made the value. -/
def contextualize {α : Type} : Nat → (Nat → Comp α) → Comp α
  | 0, _, _ => none
  | f + 1, receiver, st =>
    match contextGet st .reprer with
    | some r => receiver r st
    | none => contextCall .reprer st.reprers.length (contextualize f receiver) { st with reprers := st.reprers ++ [[]] }

/-- `_RecursiveReprer.recursiveRepr` (`structlike.py:21-33`) of reprer `r` on the record `i`. -/
def recursiveRepr (r i : Nat) (cls : String) (thunk : Comp String) : Comp String := fun st =>
  let act := st.reprers.getD r []
  if i ∈ act then some (.ok (cls ++ "(...)"), st)
  else
    match thunk { st with reprers := st.reprers.set r (i :: act) } with
    | none => none
    | some (x, st') => some (x, { st' with reprers := st'.reprers.set r ((st'.reprers.getD r []).erase i) })

def cfieldValue : Option CValue → CValue
  | none => .leaf "None"
  | some v => v

mutual
/-- `repr(v)` (`structlike.py:98-114`) -/
def reprC (h : CHeap) : Nat → CValue → Comp String
  | 0, _, _ => none
  | _ + 1, .leaf s, st => some (.ok s, st)
  | _ + 1, .bad, st => some (.error .valueError, st)
  | f + 1, .seq vs, st =>
    match reprCs h f vs st with
    | none => none
    | some (.error e, st') => some (.error e, st')
    | some (.ok ss, st') => some (.ok ("[" ++ String.intercalate ", " ss ++ "]"), st')
  | f + 1, .within k x v, st => contextCall (.other k) x (reprC h f v) st
  | f + 1, .ref i, st =>
    match h[i]? with
    | none => some (.error .attributeError, st)
    | some o =>
      contextualize 2 (fun r => recursiveRepr r i o.cls fun st =>
        match reprCs h f (o.fields.map fun p => cfieldValue p.2) st with
        | none => none
        | some (.error e, st') => some (.error e, st')
        | some (.ok ss, st') =>
          some (.ok (o.cls ++ "(" ++ String.intercalate ", "
            ((o.fields.zip ss).map fun p => p.1.1 ++ "=" ++ p.2) ++ ")"), st')) st
/-- `repr` of several values from left to right. -/
def reprCs (h : CHeap) : Nat → List CValue → Comp (List String)
  | 0, _, _ => none
  | _ + 1, [], st => some (.ok [], st)
  | f + 1, v :: vs, st =>
    match reprC h f v st with
    | none => none
    | some (.error e, st') => some (.error e, st')
    | some (.ok s, st') =>
      match reprCs h f vs st' with
      | none => none
      | some (.error e, st'') => some (.error e, st'')
      | some (.ok ss, st'') => some (.ok (s :: ss), st'')
end

end Verif.StructlikeContext
