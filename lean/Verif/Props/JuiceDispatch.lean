import Verif.Lemmas.JuiceDispatch
/-!
# Juice dispatch: C31, C32, C35
-/
namespace Verif.JuiceDispatch
open Verif.Py Verif.Juice Verif.JuiceArgs Verif.JuiceRpc

/-! ## C31: namespaces -/

/-- C31: a `command_` method is called only if the namespace is one of its command's. -/
theorem only_in_namespace (U : Uni) (H : Hier) (app : App) (cmd : Str) (box : Box) (ns : Option Str) (m : Nat)
    (kw : Dict Str Obj) (h : .command m kw ∈ (dispatchCommand U H app cmd box ns).1) :
    ∃ c, app.attr (autoDispatchPrefix ++ normalizeCommand U cmd) = some (.command m c) ∧ ns ∈ c.namespaces ∧
      (dispatchCommand U H app cmd box ns).1 = [.command m kw] := by
  unfold dispatchCommand lookupFunction at h ⊢
  cases ha : app.attr (autoDispatchPrefix ++ normalizeCommand U cmd) with
  | some a =>
    simp only [ha] at h ⊢
    cases a with
    | bare k => simp [auto] at h
    | command k c =>
      simp only [auto] at h ⊢
      by_cases hn : ns ∈ c.namespaces
      · simp only [if_pos hn] at h ⊢
        unfold doit at h ⊢
        cases hs : stringsToObjects (textBox box) c.arguments with
        | error e => simp [hs] at h
        | ok kw0 =>
          simp only [hs, List.mem_singleton, Call.command.injEq] at h ⊢
          obtain ⟨rfl, rfl⟩ := h
          exact ⟨c, rfl, hn, rfl⟩
      · simp [if_neg hn] at h
  | none =>
    simp only [ha] at h
    split at h
    · cases h
    · cases h
    · rename_i k c e
      split at e
      · cases e
      · split at e <;> cases e
    · simp at h

/-- C31: in any other namespace the caller gets `UnhandledCommand` and nothing is called. -/
theorem wrong_namespace (U : Uni) (H : Hier) (app : App) (cmd : Str) (box : Box) (ns : Option Str) (m : Nat) (c : Cmd)
    (ha : app.attr (autoDispatchPrefix ++ normalizeCommand U cmd) = some (.command m c)) (hn : ns ∉ c.namespaces) :
    dispatchCommand U H app cmd box ns = ([], .ok (.failed { cls := H.unhandledCommand, text := cmd })) := by
  simp [dispatchCommand, lookupFunction, ha, auto, hn]

/-- C31: in the right one it is called, once, with the decoded arguments and the extra ones. -/
theorem right_namespace (U : Uni) (H : Hier) (app : App) (cmd : Str) (box : Box) (ns : Option Str) (m : Nat) (c : Cmd)
    (ha : app.attr (autoDispatchPrefix ++ normalizeCommand U cmd) = some (.command m c)) (hn : ns ∈ c.namespaces)
    (kw : Dict Str Obj) (hk : stringsToObjects (textBox box) c.arguments = .ok kw) (hx : c.extra = []) :
    (dispatchCommand U H app cmd box ns).1 = [.command m kw] := by
  simp [dispatchCommand, lookupFunction, ha, auto, hn, doit, hk, hx]

/-- C31: old-style methods are only called without a namespace, and only if there is no `command_` method of that name —
one in the wrong namespace is never bypassed. -/
theorem old_only_unnamespaced (U : Uni) (H : Hier) (app : App) (cmd : Str) (box : Box) (ns : Option Str) (m : Nat) (b : Box)
    (h : .old m b ∈ (dispatchCommand U H app cmd box ns).1) :
    ns = none ∧ app.attr (autoDispatchPrefix ++ normalizeCommand U cmd) = none := by
  unfold dispatchCommand lookupFunction at h
  cases ha : app.attr (autoDispatchPrefix ++ normalizeCommand U cmd) with
  | some a =>
    simp only [ha] at h
    cases a with
    | bare k => simp [auto] at h
    | command k c =>
      simp only [auto] at h
      by_cases hn : ns ∈ c.namespaces
      · simp only [if_pos hn] at h
        unfold doit at h
        cases hs : stringsToObjects (textBox box) c.arguments <;> simp [hs] at h
      · simp [if_neg hn] at h
  | none =>
    refine ⟨?_, rfl⟩
    by_contra hns
    simp [ha, hns] at h

/-- C31, C17: what counts as white space here and in `Spaced`: the code points for which `str.isspace` holds below 128. -/
theorem white_space (c : Nat) : isAsciiSpace c = true ↔ c ∈ [9, 10, 11, 12, 13, 28, 29, 30, 31, 32] := by
  simp only [isAsciiSpace, Bool.or_eq_true, Bool.and_eq_true, decide_eq_true_eq, List.mem_cons, List.not_mem_nil, or_false]
  omega

/-- C31: the method for a command is found by its name in capitals, with underscores for hyphens and without the white space
around it. -/
theorem command_name (U : Uni) (pre name post : Str) (ha : ∀ c ∈ name, c < 128) (hp : ∀ c ∈ pre ++ post, isAsciiSpace c = true)
    (h1 : ∀ c, name.head? = some c → isAsciiSpace c = false) (h2 : ∀ c, name.getLast? = some c → isAsciiSpace c = false) :
    normalizeCommand U (pre ++ name ++ post) =
      name.map fun c => if c = 45 then 95 else if 97 ≤ c ∧ c ≤ 122 then c - 32 else c := by
  have hlow : ∀ c, isAsciiSpace c = true → c < 128 ∧ asciiUpper c = c := by
    intro c h
    unfold isAsciiSpace at h
    unfold asciiUpper
    simp only [Bool.or_eq_true, Bool.and_eq_true, decide_eq_true_eq, beq_iff_eq] at h
    rw [if_neg (by omega)]
    omega
  have hup : ∀ c, isAsciiSpace c = false → isAsciiSpace (asciiUpper c) = false := by
    intro c h
    unfold asciiUpper
    split
    · unfold isAsciiSpace
      simp only [Bool.or_eq_false_iff, Bool.and_eq_false_iff, decide_eq_false_iff_not, beq_eq_false_iff_ne]
      omega
    · exact h
  have hpre : pre.map asciiUpper = pre := by
    rw [List.map_congr_left (g := id) fun c hc => (hlow c (hp c (by simp [hc]))).2, List.map_id]
  have hpost : post.map asciiUpper = post := by
    rw [List.map_congr_left (g := id) fun c hc => (hlow c (hp c (by simp [hc]))).2, List.map_id]
  have hall : ∀ c ∈ pre ++ name ++ post, c < 128 := by
    intro c hc
    simp only [List.mem_append] at hc
    rcases hc with (hc | hc) | hc
    · exact (hlow c (hp c (by simp [hc]))).1
    · exact ha c hc
    · exact (hlow c (hp c (by simp [hc]))).1
  have hall' : ∀ c ∈ (pre ++ name ++ post).map asciiUpper, c < 128 := by
    intro c hc
    obtain ⟨d, hd, rfl⟩ := List.mem_map.1 hc
    have := hall d hd
    unfold asciiUpper
    split <;> omega
  have hdrop : ∀ (sp l : Str), (∀ c ∈ sp, isAsciiSpace c = true) → (∀ c, l.head? = some c → isAsciiSpace c = false) →
      (sp ++ l).dropWhile isAsciiSpace = l := by
    intro sp l h h'
    induction sp with
    | nil =>
      cases l with
      | nil => rfl
      | cons c l => rw [List.nil_append, List.dropWhile_cons_of_neg]; rw [h' c rfl]; simp
    | cons c sp ih => rw [List.cons_append, List.dropWhile_cons_of_pos (h c (by simp)), ih fun x hx => h x (by simp [hx])]
  unfold normalizeCommand
  rw [U.upper_ascii _ hall, U.strip_ascii _ hall', List.map_append, List.map_append, hpre, hpost, asciiStrip]
  cases hn : name with
  | nil =>
    have e : (pre ++ [] ++ post).dropWhile isAsciiSpace = [] := by
      have := hdrop (pre ++ post) [] hp (by simp)
      simpa using this
    rw [List.map_nil, e]
    rfl
  | cons x xs =>
    rw [← hn, List.append_assoc, hdrop pre _ (fun c hc => hp c (by simp [hc])), List.reverse_append,
      hdrop post.reverse _ (fun c hc => hp c (by simp [List.mem_reverse.1 hc])), List.reverse_reverse]
    · unfold replaceChar
      rw [List.map_map]
      apply List.map_congr_left
      intro c hc
      simp only [Function.comp_def, asciiUpper]
      (repeat' split) <;> omega
    · intro c hc
      rw [List.head?_reverse, List.getLast?_map] at hc
      cases hg : name.getLast? with
      | none => rw [hg] at hc; cases hc
      | some d => rw [hg] at hc; cases hc; exact hup d (h2 d hg)
    · intro c hc
      rw [hn, List.map_cons, List.cons_append, List.head?_cons, Option.some.injEq] at hc
      rw [← hc]
      exact hup x (h1 x (by rw [hn]; rfl))

/-- C31: what arrives over the connection can only call methods that allow having no namespace. -/
theorem wire_only_unnamespaced (U : Uni) (H : Hier) (app : App) (box : Box) (m : Nat) (kw : Dict Str Obj)
    (h : .command m kw ∈ (react U H app box).1) :
    ∃ c, app.attr (autoDispatchPrefix ++ normalizeCommand U ((Dict.get? box COMMAND).getD [])) = some (.command m c) ∧
      none ∈ c.namespaces := by
  obtain ⟨c, h1, h2, -⟩ := only_in_namespace U H app _ box none m kw h
  exact ⟨c, h1, h2⟩

/-- Beside C31: an old-style method answers with the very box it returns, and does not change the protocol version; its
exception is reported like any other. -/
theorem old_answers (U : Uni) (H : Hier) (app : App) (box : Box) (m : Nat) (tag : Str) (a : Attr)
    (h1 : app.attr (autoDispatchPrefix ++ normalizeCommand U ((Dict.get? box COMMAND).getD [])) = none)
    (h2 : app.attr (baseDispatchPrefix ++ normalizeCommand U ((Dict.get? box COMMAND).getD [])) = some a)
    (ha : a = .bare m ∨ ∃ c, a = .command m c) (hask : Dict.get? box ASK = some tag) :
    (∀ b, app.runOld m box = .returned b →
      react U H app box = ([.old m box], .answer (Dict.set b ANSWER (.text tag)) false)) ∧
    (∀ e, app.runOld m box = .raised e → react U H app box = ([.old m box],
      if H.sub e.cls H.remote then .error (errorBox tag e.code e.desc) e.fatal
      else .error (errorBox tag UNHANDLED unhandledText) true)) := by
  rcases ha with rfl | ⟨c, rfl⟩ <;> constructor <;> intro x hx <;>
    simp [react, dispatchCommand, lookupFunction, h1, h2, hask, hx]

/-- Beside C31: asking in a namespace for a command that does not exist at all is not answered with `UnhandledCommand`;
an `AssertionError` escapes. -/
theorem unknown_in_namespace_fails (U : Uni) (H : Hier) (app : App) (cmd : Str) (box : Box) (ns : Str)
    (ha : app.attr (autoDispatchPrefix ++ normalizeCommand U cmd) = none) :
    dispatchCommand U H app cmd box (some ns) = ([], .error .assertionError) := by
  simp [dispatchCommand, lookupFunction, ha]

/-- Beside C31: `do(proto, ns)` sends the name `ns:cmd`, which the peer does not take apart: unless it has a method with
that odd name, nothing is called, and the connection is dropped. -/
theorem namespaced_do_fails (U : Uni) (H : Hier) (app : App) (box : Box) (name ns tag : Str)
    (hc : Dict.get? box COMMAND = some (sentName name (some ns))) (hask : Dict.get? box ASK = some tag)
    (h1 : app.attr (autoDispatchPrefix ++ normalizeCommand U (ns ++ [58] ++ name)) = none)
    (h2 : app.attr (baseDispatchPrefix ++ normalizeCommand U (ns ++ [58] ++ name)) = none) :
    react U H app box = ([], .error (errorBox tag UNHANDLED unhandledText) true) := by
  simp only [sentName] at hc
  simp only [List.append_assoc, List.singleton_append] at hc h1 h2
  simp [react, hc, dispatchCommand, lookupFunction, h1, h2, hask, H.unhandledCommand_sub]

/-! ## C32: errors -/

/-- C32: a responder raises an exception that is an instance of a declared class (in `errors` or `fatalErrors`).  An error
is sent from which the caller makes a declared class of which the exception is an instance, with the text of the
exception. -/
theorem declared_error_partial (U : Uni) (H : Hier) (app : App) (box : Box) (m : Nat) (c : Cmd) (kw : Dict Str Obj) (e : Exn)
    (tag : Str) (hr : Reaches U app box m c kw) (he : app.run m kw = .raised e) (hask : Dict.get? box ASK = some tag)
    (good : GoodErrors c) (hd : ∃ D ∈ (c.errors ++ c.fatalErrors).map Prod.fst, H.sub e.cls D = true) :
    ∃ D code, (D, code) ∈ c.errors ++ c.fatalErrors ∧ H.sub e.cls D = true ∧
      react U H app box = ([.command m kw], .error (errorBox tag code e.text) false) ∧
      massageError H c code e.text = (D, e.text) := by
  have hall := allErrors_eq good
  have hrev := reverseErrors_eq good
  have hk : Dict.keys c.allErrors = (c.errors ++ c.fatalErrors).map Prod.fst := by rw [hall]; rfl
  obtain ⟨D0, hD0, hsub0⟩ := hd
  cases ht : trap H (Dict.keys c.allErrors) e with
  | none =>
    rw [hk] at ht
    have := List.find?_eq_none.1 ht D0 hD0
    simp [hsub0] at this
  | some D =>
    have hsub : H.sub e.cls D = true := by
      have := List.find?_some ht
      simpa using this
    have hmem : D ∈ (c.errors ++ c.fatalErrors).map Prod.fst := by
      rw [← hk]; exact List.mem_of_find?_eq_some ht
    obtain ⟨⟨D', code⟩, hm, rfl⟩ := List.mem_map.1 hmem
    have hget : Dict.get? c.allErrors D' = some code := by
      rw [hall]; exact Dict.get?_of_mem good.classes hm
    refine ⟨D', code, hm, hsub, ?_, ?_⟩
    · unfold react
      rw [dispatch_reaches hr, he]
      simp only [afterRun, checkKnownErrors, ht, hget, hask, H.refl, if_true, Option.getD_some]
    · have : Dict.get? c.reverseErrors code = some D' := by
        rw [hrev]
        apply Dict.get?_of_mem
        · have := good.codes
          unfold Dict.WF Dict.keys
          rw [List.map_map]; exact this
        · exact List.mem_map.2 ⟨(D', code), hm, rfl⟩
      simp [massageError, this]

/-- C32: if the class itself is declared and no other declared class is a base of it, the caller gets exactly it. -/
theorem declared_class_partial (U : Uni) (H : Hier) (app : App) (box : Box) (m : Nat) (c : Cmd) (kw : Dict Str Obj) (e : Exn)
    (tag : Str) (hr : Reaches U app box m c kw) (he : app.run m kw = .raised e) (hask : Dict.get? box ASK = some tag)
    (good : GoodErrors c) (hd : e.cls ∈ (c.errors ++ c.fatalErrors).map Prod.fst)
    (huniq : ∀ D ∈ (c.errors ++ c.fatalErrors).map Prod.fst, H.sub e.cls D = true → D = e.cls) :
    ∃ code, react U H app box = ([.command m kw], .error (errorBox tag code e.text) false) ∧
      massageError H c code e.text = (e.cls, e.text) := by
  obtain ⟨D, code, h1, h2, h3, h4⟩ := declared_error_partial U H app box m c kw e tag hr he hask good
    ⟨e.cls, hd, H.refl _⟩
  have := huniq D (List.mem_map.2 ⟨_, h1, rfl⟩) h2
  subst this
  exact ⟨code, h3, h4⟩

/-- C32: any other exception (not itself a `RemoteJuiceError`) gives the caller `UnhandledRemoteJuiceError`, and the
server drops the connection. -/
theorem undeclared_error_partial (U : Uni) (H : Hier) (app : App) (box : Box) (m : Nat) (c : Cmd) (kw : Dict Str Obj) (e : Exn)
    (tag : Str) (hr : Reaches U app box m c kw) (he : app.run m kw = .raised e) (hask : Dict.get? box ASK = some tag)
    (hd : ∀ D ∈ (c.errors ++ c.fatalErrors).map Prod.fst, H.sub e.cls D = false) (hrem : H.sub e.cls H.remote = false)
    (hcode : UNHANDLED ∉ (c.errors ++ c.fatalErrors).map Prod.snd) :
    react U H app box = ([.command m kw], .error (errorBox tag UNHANDLED unhandledText) true) ∧
      massageError H c UNHANDLED unhandledText = (H.unhandledRemote, unhandledText) := by
  have ht : trap H (Dict.keys c.allErrors) e = none := by
    apply List.find?_eq_none.2
    intro D hD
    simp [hd D (mem_allErrors hD)]
  refine ⟨?_, ?_⟩
  · unfold react
    rw [dispatch_reaches hr, he]
    simp [afterRun, checkKnownErrors, ht, hask, hrem]
  · have : Dict.get? c.reverseErrors UNHANDLED = none := by
      rw [Dict.get?_eq_none_iff]; exact fun hm => hcode (mem_reverseErrors hm)
    simp [massageError, this]

/-- C32: likewise when the arguments cannot be decoded — the responder is then not called. -/
theorem undecodable_arguments (U : Uni) (H : Hier) (app : App) (box : Box) (m : Nat) (c : Cmd) (tag : Str)
    (ha : app.attr (autoDispatchPrefix ++ normalizeCommand U ((Dict.get? box COMMAND).getD [])) = some (.command m c))
    (hn : none ∈ c.namespaces) (err : PyErr) (hs : stringsToObjects (textBox box) c.arguments = .error err)
    (hask : Dict.get? box ASK = some tag) :
    react U H app box = ([], .error (errorBox tag UNHANDLED unhandledText) true) := by
  simp [react, dispatchCommand, lookupFunction, ha, auto, hn, doit, hs, hask, H.builtin_sub]

/-- C32: and when there is no such command. -/
theorem unknown_command (U : Uni) (H : Hier) (app : App) (box : Box) (tag : Str) (hask : Dict.get? box ASK = some tag)
    (h1 : app.attr (autoDispatchPrefix ++ normalizeCommand U ((Dict.get? box COMMAND).getD [])) = none)
    (h2 : app.attr (baseDispatchPrefix ++ normalizeCommand U ((Dict.get? box COMMAND).getD [])) = none) :
    react U H app box = ([], .error (errorBox tag UNHANDLED unhandledText) true) := by
  simp [react, dispatchCommand, lookupFunction, h1, h2, hask, H.unhandledCommand_sub]

/-- C32: a command that wants no answer and fails in any way costs the connection. -/
theorem failure_without_ask (U : Uni) (H : Hier) (app : App) (box : Box) (m : Nat) (c : Cmd) (kw : Dict Str Obj) (e : Exn)
    (hr : Reaches U app box m c kw) (he : app.run m kw = .raised e) (hask : Dict.get? box ASK = none) :
    react U H app box = ([.command m kw], .puke) := by
  unfold react
  rw [dispatch_reaches hr, he]
  simp [afterRun, hask]

/-- C32 over the wire: the error box arrives, and the Deferred waiting for `tag` fires with code and description. -/
theorem error_crosses_the_wire (U : Uni) (tag code desc : Str) (ht : ∀ ch ∈ tag, IsScalar ch) (hc : ∀ ch ∈ code, IsScalar ch)
    (hd : ∀ ch ∈ desc, IsScalar ch) :
    ∃ x b', Juice.serialize (errorBox tag code desc) = .ok x ∧ parseString U x = .ok [b'] ∧
      ∀ (p : Side) (d : Dict Str Nat) (n : Nat), Dict.get? d tag = some n →
        juiceBoxReceived p d b' = { p with outstanding := some (Dict.erase d tag),
                                           fired := p.fired ++ [(n, .error code desc)] } := by
  have hlegal : LegalBox (errorBox tag code desc) := {
    wf := by show ([ERROR, ERROR_DESCRIPTION, ERROR_CODE] : List Str).Nodup; decide
    noLength := by
      intro p hp
      simp only [errorBox, List.mem_cons, List.not_mem_nil, or_false] at hp
      rcases hp with rfl | rfl | rfl <;> simp only <;> decide
    keys := by
      intro p hp
      have : p.1 = ERROR ∨ p.1 = ERROR_DESCRIPTION ∨ p.1 = ERROR_CODE := by
        simp only [errorBox, List.mem_cons, List.not_mem_nil, or_false] at hp
        rcases hp with rfl | rfl | rfl <;> simp
      rcases this with e | e | e <;> rw [e] <;> exact ⟨⟨by decide, by decide, by decide, by decide⟩, .inl ⟨by decide, by decide⟩⟩
    values := by
      intro p hp
      simp only [errorBox, List.mem_cons, List.not_mem_nil, or_false] at hp
      rcases hp with rfl | rfl | rfl
      · exact ht
      · exact hd
      · exact hc
    body := by
      intro p hp e
      exfalso
      simp only [errorBox, List.mem_cons, List.not_mem_nil, or_false] at hp
      rcases hp with rfl | rfl | rfl <;> simp only at e <;> revert e <;> decide }
  obtain ⟨xs, bs', h1, h2, h3⟩ := parseString_boxes U [errorBox tag code desc] (by simpa using hlegal)
  cases h1 with
  | @cons _ x _ _ px pn =>
    cases pn
    cases h2 with
    | @cons _ b' _ _ py pn =>
      cases pn
      refine ⟨x, b', px, by simpa using h3, ?_⟩
      intro p d n hdn
      have hget : ∀ k, Dict.get? b' k = Dict.get? (errorBox tag code desc) k := by
        intro k
        cases hg : Dict.get? (errorBox tag code desc) k with
        | some t => exact Dict.get?_of_mem py.1 ((py.2 _).2 (Dict.mem_of_get? hg))
        | none =>
          cases hg' : Dict.get? b' k with
          | none => rfl
          | some t =>
            have := Dict.get?_of_mem hlegal.wf ((py.2 _).1 (Dict.mem_of_get? hg'))
            rw [hg] at this; cases this
      have g1 : Dict.get? b' COMMAND = none := by rw [hget]; rfl
      have g2 : Dict.get? b' ANSWER = none := by rw [hget]; rfl
      have g3 : Dict.get? b' ERROR = some tag := by rw [hget]; rfl
      have g4 : Dict.get? b' ERROR_CODE = some code := by rw [hget]; rfl
      have g5 : Dict.get? b' ERROR_DESCRIPTION = some desc := by rw [hget]; rfl
      simp [juiceBoxReceived, Dict.has, g1, g2, g3, g4, g5, answerReceived, hdn]

/-- C32, end to end: a declared exception raised by the responder makes the Deferred of the request fire with a code and
description from which `do` makes the declared class and the exception's text. -/
theorem declared_error_end_to_end_partial (U : Uni) (H : Hier) (app : App) (box : Box) (m : Nat) (c : Cmd) (kw : Dict Str Obj)
    (e : Exn) (tag : Str) (hr : Reaches U app box m c kw) (he : app.run m kw = .raised e)
    (hask : Dict.get? box ASK = some tag) (good : GoodErrors c)
    (hd : ∃ D ∈ (c.errors ++ c.fatalErrors).map Prod.fst, H.sub e.cls D = true)
    (htag : ∀ ch ∈ tag, IsScalar ch) (htext : ∀ ch ∈ e.text, IsScalar ch)
    (hcodes : ∀ p ∈ c.errors ++ c.fatalErrors, ∀ ch ∈ p.2, IsScalar ch) :
    ∃ D code ebox x b', D ∈ (c.errors ++ c.fatalErrors).map Prod.fst ∧ H.sub e.cls D = true ∧
      react U H app box = ([.command m kw], .error ebox false) ∧ Juice.serialize ebox = .ok x ∧
      parseString U x = .ok [b'] ∧ massageError H c code e.text = (D, e.text) ∧
      ∀ (p : Side) (d : Dict Str Nat) (n : Nat), Dict.get? d tag = some n →
        (juiceBoxReceived p d b').fired = p.fired ++ [(n, .error code e.text)] := by
  obtain ⟨D, code, h1, h2, h3, h4⟩ := declared_error_partial U H app box m c kw e tag hr he hask good hd
  obtain ⟨x, b', w1, w2, w3⟩ := error_crosses_the_wire U tag code e.text htag (hcodes _ h1) htext
  exact ⟨D, code, _, x, b', List.mem_map.2 ⟨_, h1, rfl⟩, h2, h3, w1, w2, h4, fun p d n hn => by rw [w3 p d n hn]⟩

/-! ### Where C32 is false of the code -/

/-- A small class hierarchy: 0 `Exception`, 1 `RemoteJuiceError`, 2 `UnhandledRemoteJuiceError`, 3 `UnhandledCommand`,
4 `IncompatibleVersions`, 5 the built-in ones, 6 and 7 an application error and a subclass of it. -/
def demoHier : Hier where
  sub a b := decide (a = b ∨ b = 0 ∨ (a = 2 ∧ b = 1) ∨ (a = 7 ∧ b = 6))
  refl := by simp
  trans := by intro a b c h1 h2; simp only [decide_eq_true_eq] at *; unfold Cls at *; omega
  remote := 1
  unhandledRemote := 2
  unhandledCommand := 3
  incompatible := 4
  builtin _ := { cls := 5, text := [] }
  unhandledRemote_sub := by decide
  unhandledCommand_sub := by decide
  incompatible_sub := by decide
  builtin_sub := by intro; decide

/-- An application with one command `X` that raises `e`. -/
def demoApp (c : Cmd) (e : Exn) : App where
  attr s := if s = autoDispatchPrefix ++ [88] then some (.command 1 c) else none
  run _ _ := .raised e
  runOld _ b := .returned (textBox b)

/-- `{'_command': 'x', '_ask': '1'}` -/
def demoBox : Box := [(COMMAND, [120]), (ASK, [49])]

theorem demo_reaches (U : Uni) (c : Cmd) (e : Exn) (h1 : none ∈ c.namespaces) (h2 : c.arguments = []) (h3 : c.extra = []) :
    Reaches U (demoApp c e) demoBox 1 c [] := by
  have hn : normalizeCommand U [120] = [88] := by
    unfold normalizeCommand
    rw [U.upper_ascii _ (by decide), U.strip_ascii _ (by decide)]
    rfl
  refine ⟨?_, h1, [], by rw [h2]; rfl, by rw [h3]; rfl⟩
  have : (Dict.get? demoBox COMMAND).getD [] = [120] := rfl
  rw [this, hn]
  simp [demoApp]

/-- A declared fatal error never closes the connection. -/
theorem fatal_error_fails (U : Uni) (text : Str) :
    ∃ code, react U demoHier (demoApp { fatalErrors := [(6, [70])] } { cls := 6, text := text }) demoBox =
      ([.command 1 []], .error (errorBox [49] code text) false) := by
  obtain ⟨D, code, -, -, h, -⟩ := declared_error_partial U demoHier (demoApp { fatalErrors := [(6, [70])] } { cls := 6, text := text })
    demoBox 1 { fatalErrors := [(6, [70])] } [] { cls := 6, text := text } [49] (demo_reaches U _ _ (by decide) rfl rfl) rfl rfl
    ⟨by decide, by decide⟩ ⟨6, by decide, by rfl⟩
  exact ⟨code, h⟩

/-- Two classes with the same code: the caller gets the one declared last, whichever was raised. -/
theorem shared_code_fails (U : Uni) (text : Str) :
    react U demoHier (demoApp { errors := [(6, [70]), (4, [70])] } { cls := 6, text := text }) demoBox =
      ([.command 1 []], .error (errorBox [49] [70] text) false) ∧
    massageError demoHier { errors := [(6, [70]), (4, [70])] } [70] text = (4, text) := by
  refine ⟨?_, rfl⟩
  unfold react
  rw [dispatch_reaches (demo_reaches U _ _ (by decide) rfl rfl)]
  rfl

/-- An undeclared `RemoteJuiceError` whose code happens to be declared for another class becomes that class, and the
connection stays open. -/
theorem remote_error_fails (U : Uni) (text desc : Str) :
    react U demoHier (demoApp { errors := [(6, [70])] } { cls := 1, text := text, code := [70], desc := desc }) demoBox =
      ([.command 1 []], .error (errorBox [49] [70] desc) false) ∧
    massageError demoHier { errors := [(6, [70])] } [70] desc = (6, desc) := by
  refine ⟨?_, rfl⟩
  unfold react
  rw [dispatch_reaches (demo_reaches U _ _ (by decide) rfl rfl)]
  rfl

/-- `class Derived(Base)` declared after `Base`: raising `Derived` gives the caller `Base`. -/
theorem base_first_fails (U : Uni) (text : Str) :
    react U demoHier (demoApp { errors := [(6, [70]), (7, [71])] } { cls := 7, text := text }) demoBox =
      ([.command 1 []], .error (errorBox [49] [70] text) false) ∧
    massageError demoHier { errors := [(6, [70]), (7, [71])] } [70] text = (6, text) := by
  refine ⟨?_, rfl⟩
  unfold react
  rw [dispatch_reaches (demo_reaches U _ _ (by decide) rfl rfl)]
  rfl

/-- `Derived` declared before `Base`: raising `Derived` gives `Derived`. -/
example (U : Uni) (text : Str) :
    ∃ code, react U demoHier (demoApp { errors := [(7, [71])], fatalErrors := [(4, [70])] } { cls := 7, text := text }) demoBox =
      ([.command 1 []], .error (errorBox [49] code text) false) ∧
    massageError demoHier { errors := [(7, [71])], fatalErrors := [(4, [70])] } code text = (7, text) :=
  declared_class_partial U demoHier _ demoBox 1 _ [] { cls := 7, text := text } [49] (demo_reaches U _ _ (by decide) rfl rfl)
    rfl rfl ⟨by decide, by decide⟩ (by simp) (by simp [demoHier])

example (U : Uni) : react U demoHier (demoApp { errors := [(7, [71])] } { cls := 6, text := [] }) demoBox =
      ([.command 1 []], .error (errorBox [49] UNHANDLED unhandledText) true) :=
  (undeclared_error_partial U demoHier _ demoBox 1 _ [] { cls := 6, text := [] } [49] (demo_reaches U _ _ (by decide) rfl rfl)
    rfl rfl (by decide) (by decide) (by decide)).1

example (U : Uni) (app : App) (ha : app = demoApp { namespaces := [some [97]] } { cls := 6, text := [] }) :
    dispatchCommand U demoHier app [120] [] none =
      ([], .ok (.failed { cls := 3, text := [120] })) := by
  subst ha
  apply wrong_namespace U demoHier _ _ _ _ 1 { namespaces := [some [97]] }
  · have hn : normalizeCommand U [120] = [88] := by
      unfold normalizeCommand
      rw [U.upper_ascii _ (by decide), U.strip_ascii _ (by decide)]
      rfl
    rw [hn]; simp [demoApp]
  · decide

/-! ## C35: version negotiation -/

/-- C35: the first offered version that is supported is chosen. -/
theorem negotiate_first (V l : List Int) (o : Obj) : negotiateLoop V (l.map .int) = some o ↔
    ∃ a v b, l = a ++ v :: b ∧ o = .int v ∧ v ∈ V ∧ ∀ x ∈ a, x ∉ V := by
  induction l with
  | nil => simp [negotiateLoop]
  | cons x l ih =>
    rw [List.map_cons, negotiateLoop]
    by_cases hx : x ∈ V
    · rw [if_pos hx]
      constructor
      · intro h
        cases h
        exact ⟨[], x, l, rfl, rfl, hx, by simp⟩
      · rintro ⟨a, v, b, h1, rfl, h3, h4⟩
        cases a with
        | nil => simp at h1; rw [h1.1]
        | cons y a =>
          simp at h1
          exact absurd (h1.1 ▸ hx) (h4 y (by simp))
    · rw [if_neg hx, ih]
      constructor
      · rintro ⟨a, v, b, h1, h2, h3, h4⟩
        refine ⟨x :: a, v, b, by rw [h1]; rfl, h2, h3, ?_⟩
        intro y hy
        rcases List.mem_cons.1 hy with rfl | hy
        · exact hx
        · exact h4 y hy
      · rintro ⟨a, v, b, h1, h2, h3, h4⟩
        cases a with
        | nil => simp at h1; rw [h1.1] at hx; exact absurd h3 hx
        | cons y a =>
          simp at h1
          exact ⟨a, v, b, h1.2, h2, h3, fun z hz => h4 z (by simp [hz])⟩

/-- C35: it fails exactly when no offered version is supported. -/
theorem negotiate_none (V l : List Int) : negotiateLoop V (l.map .int) = none ↔ ∀ x ∈ l, x ∉ V := by
  induction l with
  | nil => simp [negotiateLoop]
  | cons x l ih =>
    rw [List.map_cons, negotiateLoop]
    by_cases hx : x ∈ V
    · rw [if_pos hx]; simp [hx]
    · rw [if_neg hx, ih]; simp [hx]

/-- C35: `command_NEGOTIATE` raises `IncompatibleVersions` exactly then. -/
theorem commandNegotiate_spec (H : Hier) (V l : List Int) (kw : Dict Str Obj) (h : Dict.get? kw VERSIONS_ARG = some (.list (l.map .int))) :
    (∀ a v b, l = a ++ v :: b → v ∈ V → (∀ x ∈ a, x ∉ V) → commandNegotiate H V kw = .returned [(VERSION_ARG, .int v)]) ∧
    ((∀ x ∈ l, x ∉ V) → commandNegotiate H V kw = .raised { cls := H.incompatible, text := [] }) := by
  refine ⟨?_, ?_⟩
  · intro a v b h1 h2 h3
    have := (negotiate_first V l (.int v)).2 ⟨a, v, b, h1, rfl, h2, h3⟩
    simp only [commandNegotiate, h, this]
  · intro h1
    have := (negotiate_none V l).2 h1
    simp only [commandNegotiate, h, this]

theorem same_ints {l : List Int} {y : Obj} (h : Same (.list (l.map .int)) y) : y = .list (l.map .int) := by
  cases h with
  | @list _ l' h =>
    congr 1
    induction l generalizing l' with
    | nil => cases h; rfl
    | cons n l ih =>
      cases h with
      | cons h1 h2 =>
        cases h1
        rw [List.map_cons, ih h2]

/-- An application that can negotiate the versions `V`. -/
def Negotiates (U : Uni) (H : Hier) (V : List Int) (app : App) (m : Nat) : Prop :=
  app.attr (autoDispatchPrefix ++ "NEGOTIATE".toList.map Char.toNat) = some (.command m (negotiateCmd U)) ∧
  app.run m = commandNegotiate H V

/-- C35, the whole exchange: offer any non-empty list of versions.  If one is supported, the server answers with the first
such, sets its own version to it after sending, and the client reads the same number; otherwise the client is told
`UNHANDLED` and the connection is dropped. -/
theorem negotiation (U : Uni) (H : Hier) (V : List Int) (app : App) (m : Nat) (hA : Negotiates U H V app m) (l : List Int)
    (hl : l ≠ []) : ∃ t, (listOf (integer U false) [44, 32]).enc (.list (l.map .int)) = .ok (.text t) ∧
      ∀ (box : Box) (tag : Str), Dict.get? box COMMAND = some ("Negotiate".toList.map Char.toNat) →
        Dict.get? box ASK = some tag → Dict.get? box VERSIONS_ARG = some t →
        (∀ a v b, l = a ++ v :: b → v ∈ V → (∀ x ∈ a, x ∉ V) →
          ∃ kw ans, react U H app box = ([.command m kw], .answer ans true) ∧ Dict.get? ans ANSWER = some (.text tag) ∧
            versionOf U ans = some v ∧
            ∃ r, stringsToObjects ans (negotiateCmd U).response = .ok r ∧ Dict.get? r VERSION_ARG = some (.int v)) ∧
        ((∀ x ∈ l, x ∉ V) →
          ∃ kw, react U H app box = ([.command m kw], .error (errorBox tag UNHANDLED unhandledText) true)) := by
  obtain ⟨v, t, h1, h2, h3, ⟨y1, d1, s1⟩, ⟨y2, d2, s2⟩⟩ := integers_survive_partial U false l hl
  have hv : v = .text t := by
    cases v with
    | text s => cases h2; rfl
    | raw b =>
      exfalso
      simp only [listOf, bind, Except.bind] at h1
      split at h1
      · cases h1
      · split at h1
        · cases h1
        · simp [pure, Except.pure] at h1
  subst hv
  have e2 := same_ints s2
  subst e2
  refine ⟨t, h1, ?_⟩
  intro box tag hc hask hver
  have hn : normalizeCommand U ("Negotiate".toList.map Char.toNat) = "NEGOTIATE".toList.map Char.toNat := by
    unfold normalizeCommand
    rw [U.upper_ascii _ (by decide), U.strip_ascii _ (by decide)]
    decide
  have htb : ∀ (b : Box) k, Dict.get? (textBox b) k = (Dict.get? b k).map .text := by
    intro b k
    induction b with
    | nil => rfl
    | cons p b ih =>
      obtain ⟨k', t'⟩ := p
      simp only [textBox, List.map_cons, Dict.get?] at *
      split
      · rfl
      · exact ih
  have hargs : stringsToObjects (textBox box) (negotiateCmd U).arguments = .ok [(VERSIONS_ARG, .list (l.map .int))] := by
    have hg := htb box VERSIONS_ARG
    rw [hver] at hg
    simp only [negotiateCmd, stringsToObjects, fromBoxAll, fromBox, retrieve, hg, Option.map_some, Bool.and_false,
      Bool.false_eq_true, if_false, bind, Except.bind, d2, pure, Except.pure]
    rfl
  have hreach : Reaches U app box m (negotiateCmd U) [(VERSIONS_ARG, .list (l.map .int))] := by
    refine ⟨?_, by simp [negotiateCmd], _, hargs, rfl⟩
    rw [hc, Option.getD_some, hn]; exact hA.1
  have hspec := commandNegotiate_spec H V l [(VERSIONS_ARG, .list (l.map .int))] (by simp [Dict.get?])
  refine ⟨?_, ?_⟩
  · intro a v b e1 e2 e3
    have hrun := hspec.1 a v b e1 e2 e3
    have hkey : normalizeKey U VERSION_ARG = VERSION_ARG := by
      unfold normalizeKey
      rw [U.lower_ascii _ (by decide)]
      decide
    have hout : objectsToStrings U [(VERSION_ARG, .int v)] (negotiateCmd U).response = .ok [(VERSION_ARG, .text (intStr v))] := by
      simp [objectsToStrings, negotiateCmd, normalizeObjects, hkey, toBoxAll, toBox, retrieve, Dict.set, Dict.get?, integer,
        bind, Except.bind, pure, Except.pure]
    have hne : VERSION_ARG ≠ ANSWER := by decide
    refine ⟨[(VERSIONS_ARG, .list (l.map .int))], [(VERSION_ARG, .text (intStr v)), (ANSWER, .text tag)], ?_, ?_, ?_, ?_⟩
    · unfold react
      rw [dispatch_reaches hreach, hA.2, hrun]
      simp only [afterRun, hout, hask]
      simp [Dict.set, hne, negotiateCmd]
    · simp [Dict.get?, hne]
    · have : U.int (intStr v) = some v := by rw [U.int_ascii _ (intStr_ascii v), asciiInt_intStr]
      simp [versionOf, Dict.get?, this]
    · have : U.int (intStr v) = some v := by rw [U.int_ascii _ (intStr_ascii v), asciiInt_intStr]
      refine ⟨[(VERSION_ARG, .int v)], ?_, by simp [Dict.get?]⟩
      simp [stringsToObjects, negotiateCmd, fromBoxAll, fromBox, retrieve, Dict.get?, Dict.set, integer, this, bind,
        Except.bind, pure, Except.pure]
  · intro hno
    have hrun := hspec.2 hno
    refine ⟨[(VERSIONS_ARG, .list (l.map .int))], ?_⟩
    unfold react
    rw [dispatch_reaches hreach, hA.2, hrun]
    have : checkKnownErrors H (negotiateCmd U) { cls := H.incompatible, text := [] } = { cls := H.incompatible, text := [] } := rfl
    simp [afterRun, this, hask, H.incompatible_sub]

/-- C35: the result does not depend on what is offered after the first supported version. -/
example : negotiateLoop [1] ([3, 2, 1, 5].map .int) = some (.int 1) := by rfl
example : negotiateLoop [1] ([3, 2].map .int) = none := by rfl
/-- With `VERSIONS = [1]` (`juice.py:945`). -/
example (U : Uni) : Negotiates U demoHier [1] ⟨fun s => if s = autoDispatchPrefix ++ "NEGOTIATE".toList.map Char.toNat then
    some (.command 1 (negotiateCmd U)) else none, fun _ => commandNegotiate demoHier [1], fun _ b => .returned (textBox b)⟩ 1 :=
  ⟨by simp, rfl⟩

end Verif.JuiceDispatch
