import Verif.Spec.JuiceRemote
import Verif.Props.JuiceArgs
import Verif.Props.JuiceBytes
import Verif.Props.JuiceDispatch
/-!
# Remote calls behave as local calls: C98
-/
namespace Verif.JuiceRemote
open Verif.Py Verif.Juice Verif.JuiceArgs Verif.JuiceRpc Verif.JuiceDispatch Verif.JuiceBytes

theorem TextOf.get {v : Dict Str Val} {b : Box} (h : TextOf v b) (n : Str) :
    match Dict.get? v n with
    | none => Dict.get? b n = none
    | some x => ∃ t, Dict.get? b n = some t ∧ WireText x t := by
  induction h with
  | nil => rfl
  | @cons p q _ _ hp _ ih =>
    obtain ⟨k, v⟩ := p
    obtain ⟨k', t⟩ := q
    obtain ⟨e, e2⟩ := hp
    simp only at e e2; subst e
    rw [Dict.get?, Dict.get?]
    by_cases hk : k = n
    · simp only [hk, if_true]; exact ⟨t, rfl, e2⟩
    · simp only [hk, if_false]; exact ih

theorem TextOf.keys {v : Dict Str Val} {b : Box} (h : TextOf v b) : b.map Prod.fst = v.map Prod.fst := by
  induction h with
  | nil => rfl
  | cons hp _ ih => rw [List.map_cons, List.map_cons, ih, hp.1]

theorem get?_textBox (b : Box) (n : Str) : Dict.get? (textBox b) n = (Dict.get? b n).map .text := by
  induction b with
  | nil => rfl
  | cons p b ih =>
    obtain ⟨k, t⟩ := p
    simp only [textBox, List.map_cons, Dict.get?] at *
    split
    · rfl
    · exact ih

/-- A box that agrees with the text form of `v` holds `v`. -/
theorem holds_of {v : Dict Str Val} {b b' : Box} (h : TextOf v b) {n : Str} (e : Dict.get? b' n = Dict.get? b n) :
    Holds v (textBox b') n := by
  have hg := h.get n
  unfold Holds
  rw [get?_textBox, e]
  cases hv : Dict.get? v n with
  | none => rw [hv] at hg; simp only at hg ⊢; rw [hg]; rfl
  | some x =>
    rw [hv] at hg
    obtain ⟨t, h1, h2⟩ := hg
    exact ⟨.text t, by rw [h1]; rfl, .inr ⟨t, h2, rfl⟩⟩

theorem sameBox_get {b b' : Box} (h : SameBox b b') (hw : (b.map Prod.fst).Nodup) (n : Str) :
    Dict.get? b' n = Dict.get? b n := by
  cases hg : Dict.get? b n with
  | some t => exact Dict.get?_of_mem h.1 ((h.2 _).2 (Dict.mem_of_get? hg))
  | none =>
    cases hg' : Dict.get? b' n with
    | none => rfl
    | some t =>
      have := Dict.get?_of_mem hw ((h.2 _).1 (Dict.mem_of_get? hg'))
      rw [hg] at this; cases this

theorem scalar_text {v : Val} {t : Str} {s : Str} (h : WireText v t) (h' : WireText v s) (hs : ∀ c ∈ s, IsScalar c) :
    ∀ c ∈ t, IsScalar c := by
  rw [wireText_inj h h']; exact hs

/-- The box of a call is one that can travel. -/
theorem Makes.legal {U : Uni} {c : Cmd} {kw : List (Str × Obj)} {b : Box} (hc : CmdOk c) (h : Makes U c kw b) :
    LegalBox b ∧ ∀ p ∈ b, p.1 ∈ c.arguments.map Prod.fst := by
  obtain ⟨hacc, v, hv, ht⟩ := h
  obtain ⟨box, objs', b1, b2, b3, b4⟩ := toBoxAll_spec c.arguments hc.arguments.1 [] (normalizeObjects U kw) Dict.WF.nil
    (by simp) (fun n a hm => by rw [get?_normalizeObjects]; exact enc_of_acceptable (hacc n a hm))
  have : v = box := by
    simp [objectsToStrings, b1, bind, Except.bind, pure, Except.pure] at hv; exact hv.symm
  subst this
  have hkeys : ∀ p ∈ b, p.1 ∈ c.arguments.map Prod.fst := by
    intro p hp
    by_contra hn
    have := b4 _ hn
    rw [Dict.get?_nil, Dict.get?_eq_none_iff] at this
    apply this
    show p.1 ∈ v.map Prod.fst
    rw [← ht.keys]
    exact List.mem_map.2 ⟨p, hp, rfl⟩
  have hok := fun p hp => hc.arguments.2 _ (hkeys p hp)
  have hwf : (b.map Prod.fst).Nodup := by rw [ht.keys]; exact b2
  refine ⟨{ wf := hwf, noLength := fun p hp => (hok p hp).2.2.1, keys := fun p hp => ⟨(hok p hp).1, (hok p hp).2.1⟩,
            values := ?_, body := fun p hp e => absurd e (hok p hp).2.2.2.1 }, hkeys⟩
  intro p hp
  obtain ⟨⟨k, a⟩, hm, e⟩ := List.mem_map.1 (hkeys p hp)
  simp only at e
  have hget : Dict.get? b k = some p.2 := by rw [e]; exact Dict.get?_of_mem hwf hp
  have hg := ht.get k
  have he := b3 k a hm
  rcases he with ⟨x, w, h1, h2, h3, h4⟩ | ⟨h1, h2, h3⟩
  · rw [h4] at hg
    obtain ⟨t, g1, g2⟩ := hg
    rw [hget] at g1; cases g1
    rw [get?_normalizeObjects] at h1
    rcases hacc k a hm with ⟨x', hx', hs⟩ | ⟨k1, k2⟩
    · rw [h1] at hx'; cases hx'
      obtain ⟨v', t, f1, f2, f3, -⟩ := hs
      rw [h3, Except.ok.injEq] at f1; subst f1
      exact scalar_text g2 f2 f3
    · rw [h1] at k2
      rcases k2 with k2 | k2
      · cases k2
      · cases k2; exact absurd ⟨k1, rfl⟩ h2
  · rw [h3] at hg
    simp only at hg
    rw [hget] at hg; cases hg

theorem plays_ok {U : Uni} {pr : Protocol} (op : Local) (h : Plays U pr op) : LocalOk op := by
  cases op with
  | send name b ra =>
    obtain ⟨c, kw, h1, h2⟩ := h
    obtain ⟨hl, hk⟩ := h2.legal (pr.ok _ _ h1)
    have hno : ∀ k ∈ [COMMAND, ASK, ANSWER, ERROR], Dict.has b k = false := by
      intro k hk'
      have : Dict.get? b k = none := by
        rw [Dict.get?_eq_none_iff]
        intro hm
        obtain ⟨p, hp, e⟩ := List.mem_map.1 hm
        exact ((pr.ok _ _ h1).arguments.2 _ (hk p hp)).2.2.2.2 (e ▸ hk')
      rw [Dict.has, this]; rfl
    exact ⟨hno _ (by simp), hno _ (by simp), hno _ (by simp), hl, pr.text _ _ h1⟩
  | respond m r => exact h
  | lock => cases h

theorem foldl_set_keys (extra : List (Str × Obj)) (d : Dict Str Obj) (n : Str) :
    n ∈ Dict.keys (extra.foldl (fun d p => Dict.set d p.1 p.2) d) ↔ n ∈ Dict.keys d ∨ n ∈ extra.map Prod.fst := by
  induction extra generalizing d with
  | nil => simp
  | cons p extra ih =>
    rw [List.foldl_cons, ih, List.map_cons, List.mem_cons]
    by_cases hp : p.1 ∈ Dict.keys d
    · rw [Dict.keys_set_of_mem _ hp]
      constructor
      · rintro (h | h) <;> simp [h]
      · rintro (h | rfl | h)
        · exact .inl h
        · exact .inl hp
        · exact .inr h
    · rw [Dict.set_of_not_mem _ hp]
      simp only [Dict.keys, List.map_append, List.map_cons, List.map_nil, List.mem_append, List.mem_singleton, or_assoc]

theorem foldl_set_get {extra : List (Str × Obj)} (d : Dict Str Obj) {n : Str} (h : n ∉ extra.map Prod.fst) :
    Dict.get? (extra.foldl (fun d p => Dict.set d p.1 p.2) d) n = Dict.get? d n := by
  induction extra generalizing d with
  | nil => rfl
  | cons p extra ih =>
    rw [List.map_cons, List.mem_cons, not_or] at h
    rw [List.foldl_cons, ih _ h.2, Dict.get?_set_other _ _ _ _ (fun e => h.1 e.symm)]

/-- What happens to one request and its reply. -/
theorem one_call {U : Uni} {H : Hier} {pr : Protocol} {app : App} (hs : Serves U pr app) {name : Str} {c : Cmd}
    {kw : List (Str × Obj)} {b box box' : Box} {n : Nat} (hc : pr.command name = some c) (hm : Makes U c kw b)
    (hbox : box = Dict.set (Dict.set b COMMAND name) ASK (hexStr n)) (hsame : SameBox box box') {rep : Reply}
    (hrep : Replies U H app box' rep) {r : Result} (hcar : Carries n rep r) (extra : List (Str × Obj)) :
    ∃ m args, app.attr (autoDispatchPrefix ++ normalizeCommand U name) = some (.command m c) ∧
      (react U H app box').1 = [.command m args] ∧ Receives U c kw args ∧
      Outcome U H c extra (app.run m args) (afterDo H c extra r) := by
  have hok := pr.ok _ _ hc
  obtain ⟨m, hattr⟩ := hs _ _ hc
  obtain ⟨hl, hk⟩ := hm.legal hok
  have hwf : Dict.WF box := by
    rw [hbox]; exact (Dict.WF.set (Dict.WF.set (show Dict.WF b from hl.wf) _ _) _ _)
  have hget := fun k => sameBox_get hsame hwf k
  have hcmd : Dict.get? box' COMMAND = some name := by
    rw [hget, hbox, Dict.get?_set_other _ _ _ _ (by decide), Dict.get?_set_same]
  have hask : Dict.get? box' ASK = some (hexStr n) := by rw [hget, hbox, Dict.get?_set_same]
  obtain ⟨hacc, v, hv, ht⟩ := hm
  obtain ⟨v', hv', hsurv⟩ := arguments_survive U c.arguments hok.arguments.1 kw hacc
  rw [hv, Except.ok.injEq] at hv'
  subst hv'
  obtain ⟨kw0, hkw0, hkeys, hvals⟩ := hsurv (textBox box') (fun k hkm => holds_of ht (by
    have hne := (hok.arguments.2 k hkm).2.2.2.2
    simp only [List.mem_cons, List.not_mem_nil, or_false, not_or] at hne
    rw [hget, hbox, Dict.get?_set_other _ _ _ _ (fun e => hne.2.1 e.symm),
      Dict.get?_set_other _ _ _ _ (fun e => hne.1 e.symm)]))
  have hreach : Reaches U app box' m c (c.extra.foldl (fun d p => Dict.set d p.1 p.2) kw0) :=
    ⟨by rw [hcmd]; exact hattr, hok.open_, kw0, hkw0, rfl⟩
  generalize hargs : c.extra.foldl (fun d p => Dict.set d p.1 p.2) kw0 = args at hreach
  have hrecv : Receives U c kw args := by
    rw [← hargs]
    refine ⟨fun k => by rw [foldl_set_keys, hkeys], fun k hk1 hk2 => ?_⟩
    rw [foldl_set_get _ hk2]; exact hvals k hk1
  have hdisp := dispatch_reaches (H := H) hreach
  refine ⟨m, args, hattr, by unfold react; rw [hdisp], hrecv, ?_⟩
  obtain ⟨tag, htag, hrep⟩ := hrep
  rw [hask, Option.some.injEq] at htag
  subst htag
  cases hrun : app.run m args with
  | returned objs =>
    intro hacc2
    obtain ⟨v2, hv2, hsurv2⟩ := arguments_survive U c.response hok.response.1 objs hacc2
    have hreact : (react U H app box').2 = .answer (Dict.set v2 ANSWER (.text (hexStr n))) c.negotiates := by
      unfold react; rw [hdisp, hrun]; simp [afterRun, hv2, hask]
    rw [hreact] at hrep
    cases rep with
    | error code desc => exact hrep.elim
    | answer b0 =>
      simp only [replyBox] at hrep
      cases r with
      | error _ _ => exact hcar.elim
      | lost _ => exact hcar.elim
      | answer b1 =>
        obtain ⟨d, hd, hdk, hdv⟩ := hsurv2 (textBox b1) (fun k hkm => by
          have hne := (hok.response.2 k hkm).2.2.2.2
          simp only [List.mem_cons, List.not_mem_nil, or_false, not_or] at hne
          have := holds_of (b' := b1) hrep (n := k) (by
            rw [hcar.2 k hne.2.2.1, Dict.get?_set_other _ _ _ _ (fun e => hne.2.2.1 e.symm)])
          unfold Holds at this ⊢
          rw [Dict.get?_set_other _ _ _ _ (fun e => hne.2.2.1 e.symm)] at this
          exact this)
        refine ⟨addExtra extra d, by simp [afterDo, hd], fun k => ?_, fun k hk1 hk2 => ?_⟩
        · unfold addExtra; rw [foldl_set_keys, hdk]
        · unfold addExtra; rw [foldl_set_get _ hk2]; exact hdv k hk1
  | raised e =>
    have hfail : ∀ {tag code desc q}, (react U H app box').2 = .error (errorBox tag code desc) q →
        ∃ tag', errorBox tag code desc = replyBox tag' rep ∧ ∃ code' desc', rep = .error code' desc' := by
      intro tag code desc q he
      rw [he] at hrep
      cases rep with
      | answer _ => exact hrep.elim
      | error code' desc' => exact ⟨_, hrep, code', desc', rfl⟩
    have hgot : ∀ {tag code desc q}, (react U H app box').2 = .error (errorBox tag code desc) q →
        r = .error code desc := by
      intro tag code desc q he
      obtain ⟨tag', h1, code', desc', rfl⟩ := hfail he
      simp only [errorBox, replyBox, List.cons.injEq, Prod.mk.injEq, true_and, and_true] at h1
      cases r with
      | answer _ => exact hcar.elim
      | lost _ => exact hcar.elim
      | error c2 d2 => obtain ⟨rfl, rfl⟩ := hcar; rw [h1.2.1, h1.2.2]
    refine ⟨fun hd => ?_, fun hd hrem => ?_⟩
    · obtain ⟨D, code, h1, h2, h3, h4⟩ := declared_error_partial U H app box' m c args e _ hreach hrun hask
        ⟨hok.classes, hok.codes⟩ hd
      refine ⟨D, List.mem_map.2 ⟨_, h1, rfl⟩, h2, ?_⟩
      rw [hgot (by rw [h3])]
      simp [afterDo, h4]
    · obtain ⟨h1, h2⟩ := undeclared_error_partial U H app box' m c args e _ hreach hrun hask hd hrem hok.unhandled
      refine ⟨unhandledText, ?_⟩
      rw [hgot (by rw [h1])]
      simp [afterDo, h2]

variable (U : Uni) (H : Hier) (pr : Protocol) (app : Bool → App) (serves : ∀ s, Serves U pr (app s))
  (ops : List BOp) (ok : ∀ op ∈ ops, BOk (Plays U pr) op)
  (replies : ∀ s m rep, (m, rep) ∈ (endOf U ops s).answered →
    ∃ box, (endOf U ops s).handled[m]? = some box ∧ Replies U H (app s) box rep)
include serves ok replies

/-- C98: a remote call behaves as a local one.  Take any history of two ends on one connection, however its bytes are cut
and whatever is interleaved.  If the `Deferred` of a call fires, other than with the loss of the connection, then the call
was `Command.do` of some command with some keyword arguments; the responder for that command at the other end was called
with those arguments; and the `Deferred` gives what the responder did: the objects it returned, or the declared exception
it raised. -/
theorem remote_call (s : Bool) (n : Nat) (r : Result) (extra : List (Str × Obj)) (h : (n, r) ∈ (endOf U ops s).fired) :
    (∃ x, r = .lost x) ∨
    ∃ name c kw b m args, pr.command name = some c ∧ Makes U c kw b ∧
      (n, Dict.set (Dict.set b COMMAND name) ASK (hexStr n)) ∈ (endOf U ops s).asked ∧
      (app (!s)).attr (autoDispatchPrefix ++ normalizeCommand U name) = some (.command m c) ∧
      (∃ box ∈ (endOf U ops (!s)).handled, (react U H (app (!s)) box).1 = [.command m args]) ∧ Receives U c kw args ∧
      Outcome U H c extra ((app (!s)).run m args) (afterDo H c extra r) := by
  rcases bytes_answer_matches U plays_ok ops ok s n r h with hl | ⟨m, box, box', rep, h1, h2, h3, h4, h5⟩
  · exact .inl hl
  · right
    obtain ⟨name, b, ⟨c, kw, hc, hm⟩, hb⟩ := bytes_asked U plays_ok ops ok s n box h1
    obtain ⟨box2, hb2, hrep⟩ := replies (!s) m rep h4
    rw [h2, Option.some.injEq] at hb2
    subst hb2
    obtain ⟨m', args, g1, g2, g3, g4⟩ := one_call (serves (!s)) hc hm hb h3 hrep h5 extra
    exact ⟨name, c, kw, b, m', args, hc, hm, hb ▸ h1, g1, ⟨box', List.mem_of_getElem? h2, g2⟩, g3, g4⟩

/-- C98: and when every byte has been received, no responder is running and the connection has not been lost, every call has
got its result. -/
theorem remote_calls_complete (s : Bool) (up : ∀ b, (endOf U ops b).outstanding ≠ none)
    (flight : ∀ b, inFlight U ops b = []) (idle : ∀ b, (endOf U ops b).pending = []) (n : Nat) (box : Box)
    (extra : List (Str × Obj)) (h : (n, box) ∈ (endOf U ops s).asked) :
    ∃ r name c kw b m args, (n, r) ∈ (endOf U ops s).fired ∧ pr.command name = some c ∧ Makes U c kw b ∧
      box = Dict.set (Dict.set b COMMAND name) ASK (hexStr n) ∧
      (app (!s)).attr (autoDispatchPrefix ++ normalizeCommand U name) = some (.command m c) ∧
      (∃ box' ∈ (endOf U ops (!s)).handled, (react U H (app (!s)) box').1 = [.command m args]) ∧ Receives U c kw args ∧
      Outcome U H c extra ((app (!s)).run m args) (afterDo H c extra r) := by
  obtain ⟨m, box', rep, r, h2, h3, h4, hf, h5⟩ := bytes_all_answered U plays_ok ops ok (fun h => h.elim) s up flight idle n box h
  obtain ⟨name, b, ⟨c, kw, hc, hm⟩, hb⟩ := bytes_asked U plays_ok ops ok s n box h
  obtain ⟨box2, hb2, hrep⟩ := replies (!s) m rep h4
  rw [h2, Option.some.injEq] at hb2
  subst hb2
  obtain ⟨m', args, g1, g2, g3, g4⟩ := one_call (serves (!s)) hc hm hb h3 hrep h5 extra
  exact ⟨r, name, c, kw, b, m', args, hf, hc, hm, hb, g1, ⟨box', List.mem_of_getElem? h2, g2⟩, g3, g4⟩

/-! ### A case: the history `talk` -/
omit serves ok replies

/-- `class A(Command): arguments = [('k', String())]; response = [('x', String())]` -/
def demoCmd : Cmd where
  arguments := [([107], string false)]
  response := [([120], string false)]

theorem nameOk1 (c : Nat) (h : c ∈ [107, 120]) : NameOk [c] := by
  have hk : ∀ c ∈ [107, 120], [c] ∉ keywords ∧ [c] ≠ LENGTH ∧ [c] ≠ BODY ∧ [c] ∉ [COMMAND, ASK, ANSWER, ERROR] := by decide
  have hw := key_legal (k := [c]) (by revert h; revert c; decide) (hk c h).1
  exact ⟨hw.1, hw.2, (hk c h).2⟩

def demoPr : Protocol where
  command name := if name = [65] then some demoCmd else none
  ok := by
    intro name c h
    split at h
    · cases h
      exact ⟨by simp [demoCmd], ⟨by decide, by simpa [demoCmd] using nameOk1 107 (by simp)⟩,
        ⟨by decide, by simpa [demoCmd] using nameOk1 120 (by simp)⟩, by simp [demoCmd], by simp [demoCmd], by simp [demoCmd]⟩
    · cases h
  text := by
    intro name c h
    split at h
    · rename_i e; subst e; decide
    · cases h

/-- The responder answers `x = 'y'`. -/
def demoServer : App where
  attr s := if s = autoDispatchPrefix ++ [65] then some (.command 1 demoCmd) else none
  run _ _ := .returned [([120], .str [121])]
  runOld _ b := .returned (textBox b)

theorem demo_serves : Serves .ascii demoPr demoServer := by
  intro name c h
  simp only [demoPr] at h
  split at h
  · rename_i e; subst e; cases h
    exact ⟨1, rfl⟩
  · cases h

theorem demo_plays : ∀ op ∈ talk, BOk (Plays .ascii demoPr) op := by
  have hp : ∀ p b, ∀ op ∈ promptly p b, Plays .ascii demoPr op := by
    intro p b op h
    unfold promptly at h
    split at h
    · rw [List.mem_singleton] at h
      subst h
      have := legal_set (b := []) legal_nil (key_legal (k := [120]) (by decide) (by decide)) (by decide) (by decide)
        (v := [121]) (by decide)
      exact ⟨rfl, this⟩
    · cases h
  intro op hop
  simp only [talk, List.mem_cons, List.not_mem_nil, or_false] at hop
  rcases hop with h | h | h | h | h | h <;> subst h
  · refine ⟨demoCmd, [([107], .str [118, 10, 119])], rfl, ?_, _, rfl, ?_⟩
    · intro n a hm
      simp only [demoCmd, List.mem_singleton, Prod.mk.injEq] at hm
      obtain ⟨rfl, rfl⟩ := hm
      exact .inl ⟨.str [118, 10, 119], rfl, string_survives _ _ (by decide)⟩
    · exact .cons ⟨rfl, rfl⟩ .nil
  all_goals exact hp

theorem demo_world : (endOf .ascii talk true).fired = [(1, .answer [([120], [121]), (ANSWER, [49])])] ∧
    (endOf .ascii talk true).answered = [] ∧
    (endOf .ascii talk false).handled.map (fun b => (Dict.get? b COMMAND, Dict.get? b ASK, Dict.get? b [107])) =
      [(some [65], some [49], some [118, 10, 119])] ∧
    (endOf .ascii talk false).answered = [(0, .answer [([120], [121])])] :=
  of_runF .ascii 50 (Q := fun w => (w.conn true).app.1.fired = [(1, .answer [([120], [121]), (ANSWER, [49])])] ∧
    (w.conn true).app.1.answered = [] ∧
    (w.conn false).app.1.handled.map (fun b => (Dict.get? b COMMAND, Dict.get? b ASK, Dict.get? b [107])) =
      [(some [65], some [49], some [118, 10, 119])] ∧
    (w.conn false).app.1.answered = [(0, .answer [([120], [121])])]) (by decide +kernel)

theorem demo_replies : ∀ s m rep, (m, rep) ∈ (endOf .ascii talk s).answered →
    ∃ box, (endOf .ascii talk s).handled[m]? = some box ∧ Replies .ascii demoHier demoServer box rep := by
  obtain ⟨-, h1, h2, h3⟩ := demo_world
  intro s m rep h
  cases s with
  | true => rw [h1] at h; cases h
  | false =>
    rw [h3, List.mem_singleton, Prod.mk.injEq] at h
    obtain ⟨rfl, rfl⟩ := h
    cases hh : (endOf .ascii talk false).handled with
    | nil => rw [hh] at h2; cases h2
    | cons box rest =>
      rw [hh, List.map_cons, List.cons.injEq, Prod.mk.injEq, Prod.mk.injEq] at h2
      obtain ⟨⟨g1, g2, g3⟩, -⟩ := h2
      refine ⟨box, rfl, [49], g2, ?_⟩
      have hs : stringsToObjects (textBox box) demoCmd.arguments = .ok [([107], .str [118, 10, 119])] := by
        rw [extra_keys_ignored _ (textBox box) (textBox [([107], [118, 10, 119])]) (by decide)]
        · rfl
        · intro n hn
          simp only [demoCmd, List.map_cons, List.map_nil, List.mem_singleton] at hn
          subst hn
          rw [get?_textBox, g3]; rfl
      have hr : Reaches .ascii demoServer box 1 demoCmd [([107], .str [118, 10, 119])] :=
        ⟨by rw [g1]; rfl, by simp [demoCmd], _, hs, rfl⟩
      have : (react .ascii demoHier demoServer box).2 = .answer [([120], .text [121]), (ANSWER, .text [49])] false := by
        unfold react
        rw [dispatch_reaches hr]
        simp only [g2]
        rfl
      rw [this]
      exact .cons ⟨rfl, rfl⟩ (.cons ⟨rfl, rfl⟩ .nil)

/-- All the hypotheses of `remote_call` hold of `talk`, where the call gives `{'x': 'y'}`. -/
example : (∀ s : Bool, Serves .ascii demoPr ((fun _ => demoServer) s)) ∧ (∀ op ∈ talk, BOk (Plays .ascii demoPr) op) ∧
    (∀ s m rep, (m, rep) ∈ (endOf .ascii talk s).answered →
      ∃ box, (endOf .ascii talk s).handled[m]? = some box ∧ Replies .ascii demoHier demoServer box rep) ∧
    ∃ r, (1, r) ∈ (endOf .ascii talk true).fired ∧
      afterDo demoHier demoCmd [] r = .objects [([120], .str [121])] :=
  ⟨fun _ => demo_serves, demo_plays, demo_replies, _, by rw [demo_world.1]; exact List.mem_singleton.2 rfl, rfl⟩

end Verif.JuiceRemote
