import Verif.Model.FileLinksWrite
import Verif.Model.FilePathDirs
import Verif.Model.FilePathParts
/-!
# C128: file operations fail with an error of the operating system

Whoever catches `EnvironmentError` (`OSError` and `IOError`, which are one in the model) catches every failure, with the exceptions
that are stated: `NotImplementedError` of `copyTo`, `AssertionError` of appending with `alwaysCreate`, `AttributeError` of `moveTo`
to another file system.
-/
namespace Verif.FileErrors
open Verif.Py Verif.Py.Path Verif.FilePath

/-- An error of the operating system. -/
def Env (e : PyErr) : Prop := e = .other "OSError"

/-- If the outcome is an error, it is one of the operating system. -/
def Fails {α : Type} (r : Except PyErr α) : Prop := ∀ e, r = .error e → Env e

/-- If it ends with an error, that is one of the operating system. -/
def Ends {α : Type} (r : α × Option PyErr) : Prop := ∀ e, r.2 = some e → Env e

theorem fails_os {α : Type} : Fails (.error osError : Except PyErr α) := by intro e h; cases h; rfl
theorem fails_ok {α : Type} (a : α) : Fails (.ok a) := by intro e h; cases h
theorem ends_os {α : Type} (a : α) : Ends (a, some osError) := by intro e h; cases h; rfl
theorem ends_none {α : Type} (a : α) : Ends (a, none) := by intro e h; cases h
theorem Fails.env {α : Type} {r : Except PyErr α} {e : PyErr} (h : Fails r) (he : r = .error e) : Env e := h e he

/-- **C128.** -/
theorem mkdir_fails (fs : Node) (p : List Str) : Fails (mkdir fs p) := by
  unfold mkdir; repeat' split
  all_goals first | exact fails_os | exact fails_ok _

/-- **C128.** -/
theorem openW_fails (fs : Node) (p : List Str) : Fails (openW fs p) := by
  unfold openW; repeat' split
  all_goals first | exact fails_os | exact fails_ok _

/-- **C128.** -/
theorem create_fails (fs : Node) (p : List Str) : Fails (create fs p) := by
  unfold create; repeat' split
  all_goals first | exact fails_os | exact fails_ok _

theorem openA_fails (fs : Node) (p : List Str) : Fails (openA fs p) := by
  unfold openA; repeat' split
  all_goals first | exact fails_os | exact fails_ok _

theorem openR_fails (fs : Node) (p : List Str) : Fails (openR fs p) := by
  unfold openR; repeat' split
  all_goals first | exact fails_os | exact fails_ok _

/-- **C128.** Writing to an open file. -/
theorem write_fails (fs : Node) (p : List Str) (content : List Nat) : Fails (write fs p content) := by
  unfold write; repeat' split
  all_goals first | exact fails_os | exact fails_ok _

/-- **C128.** `open`: appending with `alwaysCreate` is an `AssertionError`; every other failure is of the operating system. -/
theorem open_fails (fs : Node) (p : FP) (mode : Mode) {e : PyErr} (h : openM fs p mode = .error e) :
    if p.alwaysCreate = true ∧ mode = .a then e = .assertionError else Env e := by
  unfold openM at h
  by_cases h1 : p.alwaysCreate = true <;> by_cases h2 : mode = .a
  · simp only [h1, h2, if_true] at h; simp [h1, h2]; cases h; rfl
  · rw [if_pos h1, if_neg h2] at h; rw [if_neg (by tauto)]; exact create_fails _ _ _ h
  all_goals
    rw [if_neg h1] at h; rw [if_neg (by tauto)]
    cases mode
    · exact openR_fails _ _ _ h
    · exact openW_fails _ _ _ h
    · exact openA_fails _ _ _ h

/-- **C128.** `touch`. -/
theorem touch_ends (fs : Node) (p : FP) {e : PyErr} (h : (touch fs p).2 = some e) :
    if p.alwaysCreate = true then e = .assertionError else Env e := by
  unfold touch at h
  cases ho : openM fs p .a with
  | error x =>
    rw [ho] at h
    simp only at h
    by_cases hx : x = osError
    · rw [if_pos hx] at h
      have := open_fails fs p .a ho
      by_cases ha : p.alwaysCreate = true
      · simp only [ha, and_self, if_true] at this; subst hx; cases this
      · rw [if_neg ha]
        split at h
        · cases h
        · cases h; rfl
    · rw [if_neg hx] at h
      cases h
      have := open_fails fs p .a ho
      by_cases ha : p.alwaysCreate = true
      · simpa [ha] using this
      · simpa [ha] using this
  | ok fs1 =>
    rw [ho] at h
    simp only at h
    by_cases ha : p.alwaysCreate = true
    · simp [openM, ha] at ho
    · rw [if_neg ha]
      split at h
      · cases h
      · cases h; rfl

/-- **C128.** `getContent`, also with `alwaysCreate`. -/
theorem getContent_fails (fs : Node) (p : List Str) : Fails (getContent fs p) := by
  unfold getContent; repeat' split
  all_goals first | exact fails_os | exact fails_ok _

theorem getContentF_fails (fs : Node) (p : FP) : Fails (getContentF fs p).2 := by
  unfold getContentF
  split
  · rename_i e he
    have := open_fails fs p .r he
    intro x hx
    cases hx
    simpa using this
  · split
    · exact fails_ok _
    · exact fails_os

/-- **C128.** `listdir`, `children`. -/
theorem listdir_fails (fs : Node) (p : List Str) : Fails (listdir fs p) := by
  unfold listdir; repeat' split
  all_goals first | exact fails_os | exact fails_ok _

theorem children_fails (fs : Node) (p : List Str) : Fails (children fs p) := by
  unfold children
  split
  · exact fails_ok _
  · rename_i e he; intro x hx; cases hx; exact listdir_fails fs p _ he

theorem createDirectory_fails (fs : Node) (p : List Str) : Fails (createDirectory fs p) := mkdir_fails fs p

/-- **C128.** `makedirs`. -/
theorem makedirs_ends (fs : Node) (p : List Str) : Ends (makedirs fs p) := by
  have key : ∀ k fs, Ends (makedirsTo fs p k) := by
    intro k
    induction k with
    | zero => intro fs; exact ends_os _
    | succ k ih =>
      intro fs
      rw [makedirsTo]
      have hr : Ends (match lookup fs (p.take k) with
        | some _ => (fs, (none : Option PyErr))
        | none => makedirsTo fs p k) := by
        split
        · exact ends_none _
        · exact ih fs
      split
      · rename_i fs1 e he; intro x hx; cases hx; exact hr _ (congrArg Prod.snd he)
      · split
        · exact ends_none _
        · rename_i e he; intro x hx; cases hx; exact mkdir_fails _ _ _ he
  exact key _ fs

theorem rmdir_fails (fs : Node) (p : List Str) : Fails (rmdir fs p) := by
  unfold rmdir; repeat' split
  all_goals first | exact fails_os | exact fails_ok _

theorem osRemove_fails (fs : Node) (p : List Str) : Fails (osRemove fs p) := by
  unfold osRemove; repeat' split
  all_goals first | exact fails_os | exact fails_ok _

theorem children_loop {rec : Node → Str → Option (Node × Option PyErr)} {P : PyErr → Prop}
    (hr : ∀ fs c r, rec fs c = some r → ∀ e, r.2 = some e → P e) (cs : List Str) (fs : Node) {r : Node × Option PyErr}
    (h : copyChildren rec fs cs = some r) {e : PyErr} (he : r.2 = some e) : P e := by
  induction cs generalizing fs with
  | nil => rw [copyChildren] at h; cases h; cases he
  | cons c cs ih =>
    rw [copyChildren] at h
    split at h
    · cases h
    · rename_i heq; cases h; cases he; exact hr _ _ _ heq _ rfl
    · exact ih _ h

/-- **C128.** `remove`. -/
theorem remove_ends (fuel : Nat) (fs : Node) (p : List Str) {r : Node × Option PyErr} (h : remove fuel fs p = some r) : Ends r := by
  induction fuel generalizing fs p r with
  | zero => cases h
  | succ fuel ih =>
    rw [remove] at h
    split at h
    · split at h
      · cases h
      · rename_i heq; cases h
        intro e he
        exact children_loop (fun fs c r hr e he => ih fs (p ++ [c]) hr e he) _ _ heq he
      · split at h
        · cases h; exact ends_none _
        · rename_i e he; cases h; intro x hx; cases hx; exact rmdir_fails _ _ _ he
    · split at h
      · cases h; exact ends_none _
      · rename_i e he; cases h; intro x hx; cases hx; exact osRemove_fails _ _ _ he

/-- **C128.** `os.rename`. -/
theorem rename_fails (fs : Node) (src dst : List Str) : Fails (rename fs src dst) := by
  unfold rename; repeat' split
  all_goals first | exact fails_os | exact fails_ok _

/-- **C128.** `setContent`. -/
theorem setContent_ends (fs : Node) (dir : List Str) (name : Str) (content : List Nat) (ext : Str) :
    Ends (setContent fs dir name content ext) := by
  have hw : Fails (writeSibling fs dir name ext content content.length) := by
    unfold writeSibling
    split
    · rename_i e he; intro x hx; cases hx; exact openW_fails _ _ _ he
    · split
      · exact fails_ok _
      · exact fails_os
  unfold setContent
  split
  · rename_i e he; intro x hx; cases hx; exact hw _ he
  · split
    · rename_i e he; intro x hx; cases hx; exact rename_fails _ _ _ _ he
    · exact ends_none _

/-- **C128.** `moveTo`: within a file system the error is one of the operating system, to another one always `AttributeError`. -/
theorem moveTo_ends (fs : Node) (src dst : List Str) :
    Ends (moveTo true fs src dst) ∧ moveTo false fs src dst = (fs, some .attributeError) := by
  constructor
  · unfold moveTo
    rw [if_pos rfl]
    split
    · exact ends_none _
    · rename_i e he; intro x hx; cases hx; exact rename_fails _ _ _ _ he
  · simp [moveTo]

/-- An error of the operating system, or `NotImplementedError`. -/
def EnvOr (e : PyErr) : Prop := Env e ∨ e = .notImplementedError

/-- **C128.** `copyTo`. -/
theorem copyTo_ends (chunkSize fuel : Nat) (fs : Node) (src dst : List Str) {r : Node × Option PyErr}
    (h : copyTo chunkSize fuel fs src dst = some r) {e : PyErr} (he : r.2 = some e) : EnvOr e := by
  induction fuel generalizing fs src dst r e with
  | zero => cases h
  | succ fuel ih =>
    rw [copyTo] at h
    split at h
    · split at h
      · rename_i x hx
        cases h; cases he
        split at hx
        · cases hx
        · exact .inl (mkdir_fails _ _ _ hx)
      · split at h
        · exact children_loop (fun fs c r hr e he => ih fs (src ++ [c]) (dst ++ [c]) hr he) _ _ h he
        · cases h; cases he; exact .inl rfl
    · split at h
      · rename_i x hx; cases h; cases he; exact .inl (openW_fails _ _ _ hx)
      · split at h
        · split at h
          · cases h
          · split at h
            · cases h; cases he
            · cases h; cases he; exact .inl rfl
        · cases h; cases he; exact .inl rfl
    · cases h; cases he; exact .inr rfl

/-- **C128.** `copyTo` with `alwaysCreate` on either side. -/
theorem copyToF_ends (chunkSize fuel : Nat) (fs : Node) (src dst : FP) {r : Node × Option PyErr}
    (h : copyToF chunkSize fuel fs src dst = some r) {e : PyErr} (he : r.2 = some e) : EnvOr e := by
  unfold copyToF at h
  split at h
  · exact copyTo_ends _ _ _ _ _ h he
  · split at h
    · rename_i x hx; cases h; cases he
      have := open_fails _ _ _ hx
      exact .inl (by simpa using this)
    · split at h
      · rename_i x hx; cases h; cases he
        have := open_fails _ _ _ hx
        exact .inl (by simpa using this)
      · split at h
        · split at h
          · cases h
          · split at h
            · cases h; cases he
            · cases h; cases he; exact .inl rfl
        · cases h; cases he; exact .inl rfl
  · cases h; cases he; exact .inr rfl

/-- **C128.** A `NotImplementedError` of `copyTo` at the top means that the source is neither a file nor a directory. -/
theorem copyTo_special (chunkSize fuel : Nat) (fs : Node) (src dst : List Str)
    (h : ∀ n, lookup fs src = some n → n = .other) :
    copyTo chunkSize (fuel + 1) fs src dst = some (fs, some .notImplementedError) := by
  rw [copyTo]
  split
  · rename_i heq; cases h _ heq
  · rename_i heq; cases h _ heq
  · rfl

/-- **C128.** `getsize`, `getmtime`, `getctime`, `getatime`. -/
theorem get_fails (f : Parts.FP) (field : Parts.Info → Int) (now : Option Parts.Info) : Fails (f.get field now).2 := by
  unfold Parts.FP.get Parts.FP.restat
  cases now with
  | none =>
    split
    · exact fails_ok _
    · simp only [if_true]; exact fails_os
  | some i =>
    split
    · exact fails_ok _
    · exact fails_ok _

/-! ## With symbolic links -/

open Verif.FileLinks (Links World place resolve stat)

/-- **C128.** -/
theorem mkdirAt_fails (L : Links) (limit : Nat) (fs : Node) (p : List Str) : Fails (FileLinks.mkdirAt L limit fs p) := by
  unfold FileLinks.mkdirAt
  split
  · exact fails_os
  · exact mkdir_fails _ _

/-- **C128.** -/
theorem removeAt_ends (L : Links) (limit fuel : Nat) (fs : Node) (p : List Str) {r : Node × Option PyErr}
    (h : FileLinks.remove L limit fuel fs p = some r) : Ends r := by
  induction fuel generalizing fs p r with
  | zero => cases h
  | succ fuel ih =>
    rw [FileLinks.remove] at h
    split at h
    · split at h
      · cases h
      · rename_i heq; cases h
        intro e he
        exact children_loop (fun fs c r hr e he => ih fs (p ++ [c]) hr e he) _ _ heq he
      · split at h
        · cases h; exact ends_os _
        · split at h
          · cases h; exact ends_none _
          · rename_i e he; cases h; intro x hx; cases hx; exact rmdir_fails _ _ _ he
    · split at h
      · cases h; exact ends_os _
      · split at h
        · cases h; exact ends_none _
        · rename_i e he; cases h; intro x hx; cases hx; exact osRemove_fails _ _ _ he

/-- **C128.** -/
theorem copyToAt_ends (L : Links) (limit chunkSize fuel : Nat) (fs : Node) (src dst : List Str) {r : Node × Option PyErr}
    (h : FileLinks.copyTo L limit chunkSize fuel fs src dst = some r) {e : PyErr} (he : r.2 = some e) : EnvOr e := by
  induction fuel generalizing fs src dst r e with
  | zero => cases h
  | succ fuel ih =>
    rw [FileLinks.copyTo] at h
    split at h
    · split at h
      · rename_i x hx
        cases h; cases he
        split at hx
        · cases hx
        · exact .inl (mkdirAt_fails _ _ _ _ _ hx)
      · split at h
        · exact children_loop (fun fs c r hr e he => ih fs (src ++ [c]) (dst ++ [c]) hr he) _ _ h he
        · cases h; cases he; exact .inl rfl
    · split at h
      · cases h; cases he; exact .inl rfl
      · split at h
        · rename_i x hx; cases h; cases he; exact .inl (openW_fails _ _ _ hx)
        · split at h
          · split at h
            · cases h
            · split at h
              · cases h; cases he
              · cases h; cases he; exact .inl rfl
          · cases h; cases he; exact .inl rfl
    · cases h; cases he; exact .inr rfl

/-- **C128.** -/
theorem createAt_ends (limit : Nat) (w : World) (p : List Str) : Ends (FileLinks.createAt limit w p) := by
  unfold FileLinks.createAt
  split
  · exact ends_os _
  · split
    · rename_i e he; intro x hx; cases hx; exact create_fails _ _ _ he
    · exact ends_none _

/-- **C128.** -/
theorem openWAt_fails (limit : Nat) (w : World) (p : List Str) : Fails (FileLinks.openWAt limit w p) := by
  unfold FileLinks.openWAt
  split
  · exact fails_os
  · split
    · rename_i e he; intro x hx; cases hx; exact openW_fails _ _ _ he
    · exact fails_ok _

/-- **C128.** -/
theorem openFor_ends (limit : Nat) (w : World) (p : FP) : Ends (FileLinks.openFor limit w p) := by
  unfold FileLinks.openFor
  split
  · exact createAt_ends _ _ _
  · split
    · rename_i e he; intro x hx; cases hx; exact openWAt_fails _ _ _ _ he
    · exact ends_none _

/-- **C128.** -/
theorem renameAt_fails (limit : Nat) (w : World) (src dst : List Str) : Fails (FileLinks.renameAt limit w src dst) := by
  unfold FileLinks.renameAt
  split
  · split
    · rename_i e he; intro x hx; cases hx; exact rename_fails _ _ _ _ he
    · exact fails_ok _
  · exact fails_os

/-- **C128.** -/
theorem setContentAt_ends (limit : Nat) (w : World) (dir : List Str) (name : Str) (content : List Nat) (ext : Str) :
    Ends (FileLinks.setContentAt limit w dir name content ext) := by
  unfold FileLinks.setContentAt
  split
  · rename_i e he; intro x hx; cases hx; exact openWAt_fails _ _ _ _ he
  · split
    · exact ends_os _
    · simp only
      split
      · rename_i e he; intro x hx; cases hx; exact renameAt_fails _ _ _ _ _ he
      · exact ends_none _

/-- **C128.** -/
theorem moveToAt_ends (limit : Nat) (w : World) (src dst : List Str) : Ends (FileLinks.moveToAt limit w src dst) := by
  unfold FileLinks.moveToAt
  split
  · rename_i e he; intro x hx; cases hx; exact renameAt_fails _ _ _ _ _ he
  · exact ends_none _

/-! ## Examples: there are such failures -/

/-- Making a directory that is there; writing into a directory that is not. -/
example : mkdir (.dir [([97], .dir [])]) [[97]] = .error (.other "OSError") ∧
    openW (.dir []) [[97], [98]] = .error (.other "OSError") := ⟨rfl, rfl⟩

example : openM (.dir []) ⟨[[97]], true⟩ .a = .error .assertionError := rfl

example : copyTo 4 3 (.dir [([97], .dir [([98], .other)])]) [[97]] [[99]] =
    some (.dir [([97], .dir [([98], .other)]), ([99], .dir [])], some .notImplementedError) := by rfl

example : getContent (.dir [([97], .dir [])]) [[97]] = .error (.other "OSError") := rfl

end Verif.FileErrors
