import Verif.Model.AmpServer
import Verif.Props.AmpAuth
/-!
# C113: a server with many connections treats each as if it were alone, but a pad is used up for all

The history of a connection is read off the operations (`mine`), what the checkers should say off the tables and the
log (`verdictOf`), and what the client should be told off the exception (`told`).
-/
namespace Verif.AmpServer
open Verif.Py Verif.AmpAuth

variable (P : Portal) (pads : Option (Dict Bytes Bytes))

/-! ## Specification -/

/-- What happened after connection `i` was made. -/
def since : Nat → List SOp → List SOp
  | _, [] => []
  | 0, .accept :: ops => ops
  | i + 1, .accept :: ops => since i ops
  | i, _ :: ops => since i ops

/-- What an operation is for connection `i`, completions apart. -/
def command (i : Nat) : SOp → Option Op
  | .passwordLogin j u r => if j = i then some (.passwordLogin u r) else none
  | .response j n r => if j = i then some (.response n r) else none
  | .otp j p => if j = i then some (.otp p) else none
  | .lose j b => if j = i then some (.lose b) else none
  | _ => none

/-- The history of connection `i`. -/
def mine (i : Nat) (ops : List SOp) : List Op := (since i ops).filterMap (command i)

/-- How many connections were made. -/
def accepts (ops : List SOp) : Nat := ops.count .accept

def isCommand : Op → Bool
  | .complete _ _ => false
  | _ => true

/-- The pad was tried, on whatever connection. -/
def Attempted (p : Bytes) (log : List Ev) : Prop := ∃ i n r, .verdict i n (.pad p) r ∈ log

open Classical in
/-- What a checker should say after `log`. -/
noncomputable def verdictOf (log : List Ev) : Creds → Except PyErr Bytes
  | .pad p =>
    match pads with
    | none => .error (.other "UnhandledCredentials")
    | some t =>
      if Attempted p log then .error (.other "UnauthorizedLogin")
      else
        match Dict.get? t p with
        | some a => .ok a
        | none => .error (.other "UnauthorizedLogin")
  | .password u c n r =>
    match P.users with
    | none => .error (.other "UnhandledCredentials")
    | some us =>
      match Dict.get? us u with
      | none => .error (.other "UnauthorizedLogin")
      | some q =>
        match ensureBinary q with
        | .error e => .error e
        | .ok q => if P.sha1 (c ++ [32] ++ n ++ [32] ++ q) = r then .ok u else .error (.other "UnauthorizedLogin")

/-- What the client should be told of an exception. -/
def told (e : PyErr) : Reply :=
  if e = .other "UnauthorizedLogin" then .error "UNAUTHORIZED_LOGIN"
  else if e = .notImplementedError then .error "NOT_IMPLEMENTED_ERROR"
  else .quit

/-- What the client should be told at once. -/
def answer : Except PyErr Bytes → Option Reply
  | .error e => some (told e)
  | .ok a =>
    match P.realm a with
    | .avatar => some .done
    | .fails e => some (told e)
    | .later => none

/-- The login yields an avatar at once. -/
def Grants (v : Except PyErr Bytes) : Prop := ∃ a, v = .ok a ∧ P.realm a = .avatar

/-- The credentials that an operation gives to the portal. -/
inductive Gives (i : Nat) (ops : List SOp) : SOp → Creds → Prop
  | otp (p : Bytes) : Gives i ops (.otp i p) (.pad p)
  | response (n r c u : Bytes) : lastChallenge (mine i ops) = some (c, u) →
      Gives i ops (.response i n r) (.password u c n r)

/-! ## Helper lemmas -/

theorem replyTo_eq (e : PyErr) : replyTo e = told e := by
  unfold replyTo told errors
  split
  · rename_i h
    split at h
    · cases h; simp
    · cases h; simp
    · cases h
  · rename_i h
    split at h
    · cases h
    · cases h
    · rename_i h1 h2
      rw [if_neg (fun h => h1 h), if_neg (fun h => h2 h)]

theorem run_snoc (ops : List SOp) (o : SOp) : run P pads (ops ++ [o]) = step P (run P pads ops) o := by
  simp [run, List.foldl_append]

theorem getElem?_set' (l : List Conn) (i j : Nat) (c : Conn) (h : i < l.length) :
    (l.set i c)[j]? = if i = j then some c else l[j]? := by
  rw [List.getElem?_set]
  by_cases e : i = j
  · subst e; simp [h]
  · simp [e]

theorem lt_of_some {l : List Conn} {i : Nat} {c : Conn} (h : l[i]? = some c) : i < l.length := by
  rw [List.getElem?_eq_some_iff] at h; exact h.1

/-- The completions that follow a login at once. -/
def outcome (n : Nat) : Except PyErr Bytes → List Op
  | .error _ => [.complete n false]
  | .ok a =>
    match P.realm a with
    | .avatar => [.complete n true]
    | .fails _ => [.complete n false]
    | .later => []

theorem login_eq (s : Server) (i : Nat) (c : Conn) (creds : Creds) :
    login P s i c creds = ⟨(check P s.pads creds).2,
      s.conns.set i ((outcome P c.logins (check P s.pads creds).1).foldl AmpAuth.step (login_ c creds)),
      s.log ++ .verdict i c.logins creds (check P s.pads creds).1 ::
        (answer P (check P s.pads creds).1).toList.map (.reply i)⟩ := by
  unfold login outcome answer
  obtain ⟨r, t⟩ := check P s.pads creds
  cases r with
  | error e => simp [AmpAuth.step, replyTo_eq]
  | ok a =>
    simp only
    cases P.realm a <;> simp [AmpAuth.step, replyTo_eq]

/-- What an operation does to one connection. -/
theorem step_conn (s : Server) (o : SOp) (i : Nat) (c : Conn) (h : s.conns[i]? = some c) :
    ∃ ops : List Op, (step P s o).conns[i]? = some (ops.foldl AmpAuth.step c) ∧ ops.filter isCommand = (command i o).toList := by
  have hlt := lt_of_some h
  cases o with
  | accept => exact ⟨[], by simp [step, buildProtocol, List.getElem?_append_left hlt, h], rfl⟩
  | passwordLogin j u r =>
    by_cases hj : j = i
    · subst hj
      refine ⟨[.passwordLogin u r], ?_, by simp [isCommand, command]⟩
      simp only [step, h, List.foldl, AmpAuth.step]
      split
      · simp [getElem?_set', hlt]
      · exact h
    · refine ⟨[], ?_, by simp [command, hj]⟩
      simp only [step, List.foldl]
      split
      · exact h
      · rename_i c' hc'
        split
        · rw [getElem?_set' _ _ _ _ (lt_of_some hc'), if_neg hj]; exact h
        · exact h
  | response j n r =>
    by_cases hj : j = i
    · subst hj
      simp only [step, h]
      by_cases ho : c.connected ∧ c.receiver = none
      · rw [if_pos ho]
        cases ha : c.auth with
        | none =>
          exact ⟨[.response n r], by simp [AmpAuth.step, ho, getElem?_set', hlt], by simp [isCommand, command]⟩
        | some x =>
          refine ⟨.response n r :: outcome P c.logins (check P s.pads (.password x.2 x.1 n r)).1, ?_, ?_⟩
          · simp only [login_eq]
            rw [getElem?_set' _ _ _ _ hlt, if_pos rfl, List.foldl_cons]
            simp [AmpAuth.step, ho, passwordChallengeResponse, ha]
          · simp only [command, if_true, List.filter_cons, isCommand]
            unfold outcome
            split
            · simp [isCommand]
            · split <;> simp [isCommand]
      · rw [if_neg ho]
        exact ⟨[.response n r], by simp [AmpAuth.step, ho, h], by simp [isCommand, command]⟩
    · refine ⟨[], ?_, by simp [command, hj]⟩
      simp only [step, List.foldl]
      split
      · exact h
      · rename_i c' hc'
        split
        · split
          · simp only; rw [getElem?_set' _ _ _ _ (lt_of_some hc'), if_neg hj]; exact h
          · rw [login_eq]; simp only; rw [getElem?_set' _ _ _ _ (lt_of_some hc'), if_neg hj]; exact h
        · exact h
  | otp j p =>
    by_cases hj : j = i
    · subst hj
      simp only [step, h]
      by_cases ho : c.connected ∧ c.receiver = none
      · rw [if_pos ho]
        refine ⟨.otp p :: outcome P c.logins (check P s.pads (.pad p)).1, ?_, ?_⟩
        · simp only [login_eq]
          rw [getElem?_set' _ _ _ _ hlt, if_pos rfl, List.foldl_cons]
          simp [AmpAuth.step, ho, otpLogin]
        · simp only [command, if_true, List.filter_cons, isCommand]
          unfold outcome
          split
          · simp [isCommand]
          · split <;> simp [isCommand]
      · rw [if_neg ho]
        exact ⟨[.otp p], by simp [AmpAuth.step, ho, h], by simp [isCommand, command]⟩
    · refine ⟨[], ?_, by simp [command, hj]⟩
      simp only [step, List.foldl]
      split
      · exact h
      · rename_i c' hc'
        split
        · rw [login_eq]; simp only; rw [getElem?_set' _ _ _ _ (lt_of_some hc'), if_neg hj]; exact h
        · exact h
  | fire j n e =>
    by_cases hj : j = i
    · subst hj
      refine ⟨[.complete n e.isNone], ?_, by simp [isCommand, command]⟩
      simp only [step, h, List.foldl, AmpAuth.step]
      split
      · simp [getElem?_set', hlt]
      · rename_i hn
        simp [h, complete, hn]
    · refine ⟨[], ?_, by simp [command]⟩
      simp only [step, List.foldl]
      split
      · exact h
      · rename_i c' hc'
        split
        · simp only; rw [getElem?_set' _ _ _ _ (lt_of_some hc'), if_neg hj]; exact h
        · exact h
  | lose j b =>
    by_cases hj : j = i
    · subst hj
      refine ⟨[.lose b], ?_, by simp [isCommand, command]⟩
      simp only [step, h, List.foldl, AmpAuth.step]
      split
      · simp [getElem?_set', hlt]
      · exact h
    · refine ⟨[], ?_, by simp [command, hj]⟩
      simp only [step, List.foldl]
      split
      · exact h
      · rename_i c' hc'
        split
        · simp only; rw [getElem?_set' _ _ _ _ (lt_of_some hc'), if_neg hj]; exact h
        · exact h

theorem step_length (s : Server) (o : SOp) :
    (step P s o).conns.length = s.conns.length + if o = .accept then 1 else 0 := by
  cases o with
  | accept => simp [step, buildProtocol]
  | passwordLogin j u r => simp only [step]; split <;> [simp; (split <;> simp)]
  | response j n r =>
    simp only [step]; split
    · simp
    · split
      · split
        · simp
        · rw [login_eq]; simp
      · simp
  | otp j p =>
    simp only [step]; split
    · simp
    · split
      · rw [login_eq]; simp
      · simp
  | fire j n e => simp only [step]; split <;> [simp; (split <;> simp)]
  | lose j b => simp only [step]; split <;> [simp; (split <;> simp)]

theorem accepts_snoc (ops : List SOp) (o : SOp) : accepts (ops ++ [o]) = accepts ops + if o = .accept then 1 else 0 := by
  unfold accepts
  rw [List.count_append, List.count_singleton]
  by_cases h : o = .accept <;> simp [h]

theorem accepts_cons (o : SOp) (ops : List SOp) : accepts (o :: ops) = accepts ops + if o = .accept then 1 else 0 := by
  unfold accepts
  rw [List.count_cons]
  by_cases h : o = .accept <;> simp [h]

theorem since_none (ops : List SOp) : ∀ i, accepts ops ≤ i → since i ops = [] := by
  induction ops with
  | nil => intro i _; cases i <;> rfl
  | cons o ops ih =>
    intro i h
    rw [accepts_cons] at h
    cases o with
    | accept =>
      cases i with
      | zero => simp at h
      | succ i => exact ih i (by simpa using h)
    | _ => cases i <;> exact ih _ (by simpa using h)

theorem since_snoc (ops : List SOp) (o : SOp) : ∀ i, i < accepts ops → since i (ops ++ [o]) = since i ops ++ [o] := by
  induction ops with
  | nil => intro i h; simp [accepts] at h
  | cons x ops ih =>
    intro i h
    rw [accepts_cons] at h
    cases x with
    | accept =>
      cases i with
      | zero => rfl
      | succ i => exact ih i (by simpa using h)
    | _ => cases i <;> exact ih _ (by simpa using h)

theorem since_new (ops : List SOp) (o : SOp) : since (accepts ops) (ops ++ [o]) = [] := by
  induction ops with
  | nil => cases o <;> rfl
  | cons x ops ih =>
    rw [accepts_cons]
    cases x with
    | accept => exact ih
    | _ =>
      cases h : accepts ops with
      | zero => rw [h] at ih; simpa [since] using ih
      | succ n => rw [h] at ih; simpa [since] using ih

theorem mine_snoc (ops : List SOp) (o : SOp) (i : Nat) (h : i < accepts ops) :
    mine i (ops ++ [o]) = mine i ops ++ (command i o).toList := by
  unfold mine
  rw [since_snoc _ _ _ h, List.filterMap_append]
  cases hc : command i o <;> simp [hc]

theorem conns_length (ops : List SOp) : (run P pads ops).conns.length = accepts ops := by
  induction ops using List.reverseRecOn with
  | nil => rfl
  | append_singleton ops o ih => rw [run_snoc, step_length, accepts_snoc, ih]

/-- **C113.**  As many connections as were accepted, each in a state that it would reach with its own commands on a
server of its own, the logins being completed at some moments; so that all that holds of single connections (C41–C45)
holds of each. -/
theorem conn_is_run (ops : List SOp) :
    (run P pads ops).conns.length = accepts ops ∧
    ∀ i c, (run P pads ops).conns[i]? = some c → ∃ h, c = AmpAuth.run h ∧ h.filter isCommand = mine i ops := by
  refine ⟨conns_length P pads ops, ?_⟩
  induction ops using List.reverseRecOn with
  | nil => intro i c h; simp [run] at h
  | append_singleton ops o ih =>
    intro i c h
    rw [run_snoc] at h
    by_cases hi : i < accepts ops
    · obtain ⟨c0, hc0⟩ : ∃ c0, (run P pads ops).conns[i]? = some c0 := by
        rw [← conns_length P pads ops] at hi
        exact ⟨_, List.getElem?_eq_getElem hi⟩
      obtain ⟨g, rfl, hg⟩ := ih i c0 hc0
      obtain ⟨g', h1, h2⟩ := step_conn P _ o i _ hc0
      rw [h1] at h
      cases h
      refine ⟨g ++ g', by simp [AmpAuth.run, List.foldl_append], ?_⟩
      rw [mine_snoc _ _ _ hi, List.filter_append, hg, h2]
    · have hl := lt_of_some h
      rw [step_length, conns_length] at hl
      have ho : o = .accept := by
        by_cases ho : o = .accept
        · exact ho
        · simp [ho] at hl; omega
      subst ho
      simp only [if_true] at hl
      have : i = accepts ops := by omega
      subst this
      refine ⟨[], ?_, by simp [mine, since_new]⟩
      simp only [step, buildProtocol] at h
      rw [List.getElem?_append_right (by rw [conns_length]; exact Nat.le_refl _), conns_length] at h
      simp at h
      rw [← h]; rfl

theorem lastChallenge_filter (h : List Op) : lastChallenge (h.filter isCommand) = lastChallenge h := by
  unfold lastChallenge
  congr 1
  induction h with
  | nil => rfl
  | cons o h ih => cases o <;> simp [isCommand, ih, List.filter_cons]

/-- The credentials an operation yields in the state of its connection. -/
inductive GivesAt (i : Nat) (c : Conn) : SOp → Creds → Prop
  | otp (p : Bytes) : GivesAt i c (.otp i p) (.pad p)
  | response (n r ch u : Bytes) : c.auth = some (ch, u) → GivesAt i c (.response i n r) (.password u ch n r)

theorem givesAt_iff (ops : List SOp) (i : Nat) (c : Conn) (hc : (run P pads ops).conns[i]? = some c) (ho : c.Open)
    (o : SOp) (creds : Creds) : GivesAt i c o creds ↔ Gives i ops o creds := by
  obtain ⟨h, rfl, hm⟩ := (conn_is_run P pads ops).2 i c hc
  have ha : (AmpAuth.run h).auth = lastChallenge (mine i ops) := by
    rw [auth_run h ho, ← hm, lastChallenge_filter]
  constructor
  · rintro (⟨p⟩ | ⟨n, r, ch, u, e⟩)
    · exact .otp p
    · exact .response n r ch u (by rw [← ha]; exact e)
  · rintro (⟨p⟩ | ⟨n, r, ch, u, e⟩)
    · exact .otp p
    · exact .response n r ch u (by rw [ha]; exact e)

theorem step_login (s : Server) (i : Nat) (c : Conn) (hc : s.conns[i]? = some c) (ho : c.Open) (o : SOp) (creds : Creds)
    (hg : GivesAt i c o creds) : step P s o = login P s i c creds := by
  cases hg with
  | otp p =>
    simp only [step, hc]
    rw [if_pos (show c.connected = true ∧ c.receiver = none from ho)]
  | response n r ch u ha =>
    simp only [step, hc]
    rw [if_pos (show c.connected = true ∧ c.receiver = none from ho)]
    simp [ha]

/-- Every operation either is a login or leaves pads and verdicts alone. -/
theorem step_cases (s : Server) (o : SOp) :
    (∃ i c creds, s.conns[i]? = some c ∧ c.Open ∧ GivesAt i c o creds) ∨
    ((step P s o).pads = s.pads ∧ ∃ ext, (step P s o).log = s.log ++ ext ∧ ∀ i n c r, .verdict i n c r ∉ ext) := by
  cases o with
  | accept => exact .inr ⟨rfl, [], by simp [step, buildProtocol], by simp⟩
  | passwordLogin j u r =>
    right
    simp only [step]
    split
    · exact ⟨rfl, [], by simp, by simp⟩
    · split
      · exact ⟨rfl, _, rfl, by simp⟩
      · exact ⟨rfl, [], by simp, by simp⟩
  | response j n r =>
    cases hc : s.conns[j]? with
    | none => right; simp only [step, hc]; exact ⟨by trivial, [], by simp, by simp⟩
    | some c =>
      by_cases ho : c.Open
      · cases ha : c.auth with
        | none =>
          right
          simp only [step, hc]
          rw [if_pos (show c.connected = true ∧ c.receiver = none from ho)]
          simp only [ha]
          exact ⟨by trivial, _, rfl, by simp⟩
        | some x => exact .inl ⟨j, c, _, hc, ho, .response n r x.1 x.2 (by rw [ha])⟩
      · right
        simp only [step, hc]
        rw [if_neg (show ¬ (c.connected = true ∧ c.receiver = none) from ho)]
        exact ⟨rfl, [], by simp, by simp⟩
  | otp j p =>
    cases hc : s.conns[j]? with
    | none => right; simp only [step, hc]; exact ⟨by trivial, [], by simp, by simp⟩
    | some c =>
      by_cases ho : c.Open
      · exact .inl ⟨j, c, _, hc, ho, .otp p⟩
      · right
        simp only [step, hc]
        rw [if_neg (show ¬ (c.connected = true ∧ c.receiver = none) from ho)]
        exact ⟨rfl, [], by simp, by simp⟩
  | fire j n e =>
    right
    simp only [step]
    split
    · exact ⟨rfl, [], by simp, by simp⟩
    · split
      · refine ⟨rfl, _, rfl, ?_⟩
        intro i m c r
        split <;> simp
      · exact ⟨rfl, [], by simp, by simp⟩
  | lose j b =>
    right
    simp only [step]
    split
    · exact ⟨rfl, [], by simp, by simp⟩
    · split
      · exact ⟨rfl, [], by simp, by simp⟩
      · exact ⟨rfl, [], by simp, by simp⟩

/-- What is left of the table of pads. -/
structure PInv (s : Server) : Prop where
  no : pads = none → s.pads = none
  table : ∀ t, pads = some t → ∃ t', s.pads = some t' ∧ t'.WF ∧
    (∀ q, Attempted q s.log → Dict.get? t' q = none) ∧ (∀ q, ¬ Attempted q s.log → Dict.get? t' q = Dict.get? t q)

theorem attempted_quiet (log ext : List Ev) (h : ∀ i n c r, .verdict i n c r ∉ ext) (q : Bytes) :
    Attempted q (log ++ ext) ↔ Attempted q log := by
  constructor
  · rintro ⟨i, n, r, hm⟩
    rcases List.mem_append.1 hm with hm | hm
    · exact ⟨i, n, r, hm⟩
    · exact absurd hm (h _ _ _ _)
  · rintro ⟨i, n, r, hm⟩
    exact ⟨i, n, r, List.mem_append_left _ hm⟩

theorem attempted_login (log : List Ev) (i n : Nat) (creds : Creds) (r : Except PyErr Bytes) (o : Option Reply)
    (q : Bytes) : Attempted q (log ++ .verdict i n creds r :: o.toList.map (.reply i)) ↔
      Attempted q log ∨ creds = .pad q := by
  constructor
  · rintro ⟨i', n', r', hm⟩
    rcases List.mem_append.1 hm with hm | hm
    · exact .inl ⟨i', n', r', hm⟩
    · rcases List.mem_cons.1 hm with hm | hm
      · cases hm; exact .inr rfl
      · simp at hm
  · rintro (⟨i', n', r', hm⟩ | rfl)
    · exact ⟨i', n', r', List.mem_append_left _ hm⟩
    · exact ⟨i, n, r, by simp⟩

theorem check_eq {s : Server} (h : PInv pads s) (creds : Creds) :
    (check P s.pads creds).1 = verdictOf P pads s.log creds := by
  cases creds with
  | password u c n r =>
    unfold check verdictOf
    cases P.users with
    | none => rfl
    | some us =>
      simp only [requestAvatar]
      cases Dict.get? us u with
      | none => rfl
      | some q =>
        simp only [checkPassword]
        cases ensureBinary q with
        | error e => rfl
        | ok q =>
          simp only [calcResponse, message]
          by_cases he : P.sha1 (c ++ [32] ++ n ++ [32] ++ q) = r
          · rw [if_pos he]
            have : (P.sha1 (c ++ [32] ++ n ++ [32] ++ q) == r) = true := by simpa using he
            rw [this]
          · rw [if_neg he]
            have : (P.sha1 (c ++ [32] ++ n ++ [32] ++ q) == r) = false := by simpa using he
            rw [this]; rfl
  | pad p =>
    unfold check verdictOf
    cases hp : pads with
    | none => rw [h.no hp]; rfl
    | some t =>
      obtain ⟨t', h1, -, h2, h3⟩ := h.table t hp
      rw [h1]
      simp only
      by_cases ha : Attempted p s.log
      · rw [if_pos ha]
        simp [requestAvatarId, h2 p ha, unauthorized]
      · rw [if_neg ha]
        simp only [requestAvatarId, h3 p ha]
        cases Dict.get? t p <;> rfl

theorem PInv.login {s : Server} (h : PInv pads s) (i : Nat) (c : Conn) (creds : Creds) :
    PInv pads (login P s i c creds) := by
  rw [login_eq]
  cases creds with
  | password u ch n r =>
    have hp : (check P s.pads (.password u ch n r)).2 = s.pads := by
      unfold check; cases P.users <;> rfl
    refine ⟨fun e => by simp only [hp]; exact h.no e, fun t e => ?_⟩
    obtain ⟨t', h1, h2, h3, h4⟩ := h.table t e
    refine ⟨t', by simp only [hp]; exact h1, h2, fun q hq => h3 q ?_, fun q hq => h4 q fun hq' => hq ?_⟩
    · rw [attempted_login] at hq
      rcases hq with hq | hq
      · exact hq
      · cases hq
    · rw [attempted_login]; exact .inl hq'
  | pad p =>
    refine ⟨fun e => by simp [check, h.no e], fun t e => ?_⟩
    obtain ⟨t', h1, h2, h3, h4⟩ := h.table t e
    have hc : (check P s.pads (.pad p)).2 = some (requestAvatarId t' p).2 := by simp [check, h1]
    refine ⟨(requestAvatarId t' p).2, hc, ?_, ?_, ?_⟩
    · unfold requestAvatarId; split
      · exact h2.erase p
      · exact h2
    · intro q hq
      rw [attempted_login] at hq
      unfold requestAvatarId
      by_cases he : p = q
      · subst he
        cases hg : Dict.get? t' p with
        | none => exact hg
        | some a => exact Dict.get?_erase_same h2 p
      · have hq : Attempted q s.log := by
          rcases hq with hq | hq
          · exact hq
          · cases hq; exact absurd rfl he
        cases hg : Dict.get? t' p with
        | none => exact h3 q hq
        | some a => simp only; rw [Dict.get?_erase_other _ _ _ he]; exact h3 q hq
    · intro q hq
      rw [attempted_login] at hq
      have he : p ≠ q := fun e => hq (.inr (by rw [e]))
      have hq' : ¬ Attempted q s.log := fun e => hq (.inl e)
      unfold requestAvatarId
      cases hg : Dict.get? t' p with
      | none => exact h4 q hq'
      | some a => simp only; rw [Dict.get?_erase_other _ _ _ he]; exact h4 q hq'

theorem PInv.step {s : Server} (h : PInv pads s) (o : SOp) : PInv pads (step P s o) := by
  rcases step_cases P s o with ⟨i, c, creds, h1, h2, h3⟩ | ⟨h1, ext, h2, h3⟩
  · rw [step_login P s i c h1 h2 o creds h3]; exact h.login P pads i c creds
  · refine ⟨fun e => by rw [h1]; exact h.no e, fun t e => ?_⟩
    obtain ⟨t', g1, g2, g3, g4⟩ := h.table t e
    refine ⟨t', by rw [h1]; exact g1, g2, fun q hq => g3 q ?_, fun q hq => g4 q fun hq' => hq ?_⟩
    · rw [h2, attempted_quiet _ _ h3] at hq; exact hq
    · rw [h2, attempted_quiet _ _ h3]; exact hq'

theorem PInv.run (hw : ∀ t, pads = some t → t.WF) (ops : List SOp) : PInv pads (run P pads ops) := by
  induction ops using List.reverseRecOn with
  | nil =>
    refine ⟨fun e => e, fun t e => ⟨t, e, hw t e, ?_, fun q _ => rfl⟩⟩
    rintro q ⟨i, n, r, hm⟩
    simp [AmpServer.run] at hm
  | append_singleton ops o ih => rw [run_snoc]; exact ih.step P pads o

theorem run_check (hw : ∀ t, pads = some t → t.WF) (ops : List SOp) (creds : Creds) :
    (check P (run P pads ops).pads creds).1 = verdictOf P pads (run P pads ops).log creds :=
  check_eq P pads (PInv.run P pads hw ops) creds

/-! ## Logins -/

/-- What a login leaves in the log of its connection. -/
def Left (v : Except PyErr Bytes) (n : Nat) (l : List AmpAuth.Ev) : Prop :=
  (Grants P v → l = [.loggedIn n]) ∧ ((∃ a, v = .ok a ∧ P.realm a = .later) → l = []) ∧
  ((∃ e, v = .error e) ∨ (∃ a e, v = .ok a ∧ P.realm a = .fails e) → l = [.rejected n])

theorem outcome_spec (c : Conn) (creds : Creds) (v : Except PyErr Bytes) (ho : c.Open) :
    let c' := (outcome P c.logins v).foldl AmpAuth.step (login_ c creds)
    (Grants P v → c'.receiver = some c.logins ∧ c'.logout = some c.logins) ∧
    (¬ Grants P v → c'.receiver = none ∧ c'.logout = c.logout) ∧ c'.connected = true ∧ c'.auth = c.auth ∧
    c'.logins = c.logins + 1 ∧ ∃ l, c'.log = c.log ++ .login c.logins creds :: l ∧ Left P v c.logins l := by
  have hin : c.logins ∈ (login_ c creds).inFlight := by simp [login_]
  cases v with
  | error e =>
    simp only [outcome, List.foldl, AmpAuth.step, complete, if_pos hin]
    refine ⟨?_, fun _ => ⟨ho.2, rfl⟩, ho.1, rfl, rfl, [.rejected c.logins], by simp [login_], ?_, ?_, fun _ => rfl⟩
    · rintro ⟨a, h, -⟩; cases h
    · rintro ⟨a, h, -⟩; cases h
    · rintro ⟨a, h, -⟩; cases h
  | ok a =>
    cases hr : P.realm a with
    | avatar =>
      simp only [outcome, hr, List.foldl, AmpAuth.step, complete, if_pos hin]
      refine ⟨fun _ => ⟨rfl, rfl⟩, fun h => absurd ⟨a, rfl, hr⟩ h, ho.1, rfl, rfl, [.loggedIn c.logins],
        by simp [login_], fun _ => rfl, ?_, ?_⟩
      · rintro ⟨a', h, h'⟩; cases h; rw [hr] at h'; cases h'
      · rintro (⟨e, h⟩ | ⟨a', e, h, h'⟩)
        · cases h
        · cases h; rw [hr] at h'; cases h'
    | fails e =>
      simp only [outcome, hr, List.foldl, AmpAuth.step, complete, if_pos hin]
      refine ⟨?_, fun _ => ⟨ho.2, rfl⟩, ho.1, rfl, rfl, [.rejected c.logins], by simp [login_], ?_, ?_, fun _ => rfl⟩
      · rintro ⟨a', h, h'⟩; cases h; rw [hr] at h'; cases h'
      · rintro ⟨a', h, h'⟩; cases h; rw [hr] at h'; cases h'
      · rintro ⟨a', h, h'⟩; cases h; rw [hr] at h'; cases h'
    | later =>
      simp only [outcome, hr, List.foldl]
      refine ⟨?_, fun _ => ⟨ho.2, rfl⟩, ho.1, rfl, rfl, [], by simp [login_], ?_, fun _ => rfl, ?_⟩
      · rintro ⟨a', h, h'⟩; cases h; rw [hr] at h'; cases h'
      · rintro ⟨a', h, h'⟩; cases h; rw [hr] at h'; cases h'
      · rintro (⟨e, h⟩ | ⟨a', e, h, h'⟩)
        · cases h
        · cases h; rw [hr] at h'; cases h'

/-- **C113.**  A login command on a connection on which nobody is logged in: the checker for the credentials is asked —
about the pad, or about the response to the latest challenge of this very connection — and says what it should
(`verdictOf`); the client is told what it should be (`answer`); the avatar gets the connection exactly if there is one;
no other connection notices. -/
theorem login_exact (hw : ∀ t, pads = some t → t.WF) (ops : List SOp) (i : Nat) (c : Conn)
    (hc : (run P pads ops).conns[i]? = some c) (ho : c.Open) (o : SOp) (creds : Creds) (hg : Gives i ops o creds) :
    let s := run P pads ops
    let s' := run P pads (ops ++ [o])
    let v := verdictOf P pads s.log creds
    s'.log = s.log ++ .verdict i c.logins creds v :: (answer P v).toList.map (.reply i) ∧
    (∃ c', s'.conns[i]? = some c' ∧ (Grants P v → c'.receiver = some c.logins ∧ c'.logout = some c.logins) ∧
      (¬ Grants P v → c'.receiver = none ∧ c'.logout = c.logout) ∧ c'.connected = true ∧ c'.auth = c.auth ∧
      c'.logins = c.logins + 1 ∧ ∃ l, c'.log = c.log ++ .login c.logins creds :: l ∧ Left P v c.logins l) ∧
    ∀ j, j ≠ i → s'.conns[j]? = s.conns[j]? := by
  intro s s' v
  have hs : s' = login P s i c creds := by
    show run P pads (ops ++ [o]) = _
    rw [run_snoc]
    exact step_login P _ i c hc ho o creds ((givesAt_iff P pads ops i c hc ho o creds).2 hg)
  have hv : (check P s.pads creds).1 = v := run_check P pads hw ops creds
  rw [hs, login_eq, hv]
  refine ⟨rfl, ⟨_, ?_, outcome_spec P c creds v ho⟩, fun j hj => ?_⟩
  · simp only; rw [getElem?_set' _ _ _ _ (lt_of_some hc), if_pos rfl]
  · simp only; rw [getElem?_set' _ _ _ _ (lt_of_some hc), if_neg (Ne.symm hj)]

/-- **C113.**  Checkers are asked in no other circumstances. -/
theorem only_logins (ops : List SOp) (o : SOp) :
    ∃ ext, (run P pads (ops ++ [o])).log = (run P pads ops).log ++ ext ∧
      ∀ i n creds r, .verdict i n creds r ∈ ext →
        ∃ c, (run P pads ops).conns[i]? = some c ∧ c.Open ∧ n = c.logins ∧ Gives i ops o creds := by
  rw [run_snoc]
  rcases step_cases P (run P pads ops) o with ⟨i, c, creds, h1, h2, h3⟩ | ⟨-, ext, h2, h3⟩
  · rw [step_login P _ i c h1 h2 o creds h3, login_eq]
    refine ⟨_, rfl, ?_⟩
    intro i' n' creds' r' hm
    rcases List.mem_cons.1 hm with hm | hm
    · cases hm
      exact ⟨c, h1, h2, rfl, (givesAt_iff P pads ops i c h1 h2 o creds).1 h3⟩
    · simp at hm
  · exact ⟨ext, h2, fun i n creds r hm => absurd hm (h3 i n creds r)⟩

/-- **C113.**  Every verdict ever given is the one it should be, after what was given before it. -/
theorem verdict_exact (hw : ∀ t, pads = some t → t.WF) (ops : List SOp) :
    ∀ pre post i n creds r, (run P pads ops).log = pre ++ .verdict i n creds r :: post →
      r = verdictOf P pads pre creds := by
  induction ops using List.reverseRecOn with
  | nil => intro pre post i n creds r h; simp [run] at h
  | append_singleton ops o ih =>
    intro pre post i n creds r h
    rw [run_snoc] at h
    have key : ∀ ext, (step P (run P pads ops) o).log = (run P pads ops).log ++ ext →
        (∃ post', (run P pads ops).log = pre ++ .verdict i n creds r :: post') ∨
        ∃ mid, pre = (run P pads ops).log ++ mid ∧ ext = mid ++ .verdict i n creds r :: post := by
      intro ext he
      rw [he] at h
      rcases List.append_eq_append_iff.1 h with ⟨mid, h1, h2⟩ | ⟨mid, h1, h2⟩
      · exact .inr ⟨mid, h1, h2⟩
      · cases mid with
        | nil => exact .inr ⟨[], by simpa using h1.symm, by simpa using h2.symm⟩
        | cons x mid =>
          simp only [List.cons_append, List.cons.injEq] at h2
          exact .inl ⟨mid, by rw [h1, h2.1]⟩
    rcases step_cases P (run P pads ops) o with ⟨j, c, cr, h1, h2, h3⟩ | ⟨-, ext, h2, h3⟩
    · have hs := step_login P _ j c h1 h2 o cr h3
      rw [login_eq, run_check P pads hw] at hs
      rcases key _ (by rw [hs]) with ⟨post', hp⟩ | ⟨mid, e1, e2⟩
      · exact ih _ _ _ _ _ _ hp
      · cases mid with
        | nil =>
          simp only [List.nil_append, List.cons.injEq, Ev.verdict.injEq] at e2
          obtain ⟨⟨-, -, rfl, rfl⟩, -⟩ := e2
          rw [e1]; simp
        | cons x mid =>
          simp only [List.cons_append, List.cons.injEq] at e2
          have hm : Ev.verdict i n creds r ∈ (answer P (verdictOf P pads (run P pads ops).log cr)).toList.map (.reply j) := by
            rw [e2.2]; simp
          simp at hm
    · rcases key _ h2 with ⟨post', hp⟩ | ⟨mid, e1, e2⟩
      · exact ih _ _ _ _ _ _ hp
      · exact absurd (by rw [e2]; simp) (h3 i n creds r)

/-- **C113.**  `PasswordLogin` is answered with the challenge; commands on a connection that somebody has logged in on, that
is lost or that never was, change nothing. -/
theorem others_exact (ops : List SOp) (i : Nat) :
    (∀ c u rnd, (run P pads ops).conns[i]? = some c → c.Open →
      (run P pads (ops ++ [.passwordLogin i u rnd])).log = (run P pads ops).log ++ [.reply i (.challenge rnd)] ∧
      ∀ j, j ≠ i → (run P pads (ops ++ [.passwordLogin i u rnd])).conns[j]? = (run P pads ops).conns[j]?) ∧
    ((∀ c, (run P pads ops).conns[i]? = some c → ¬ c.Open) →
      (∀ u rnd, run P pads (ops ++ [.passwordLogin i u rnd]) = run P pads ops) ∧
      (∀ n r, run P pads (ops ++ [.response i n r]) = run P pads ops) ∧
      (∀ p, run P pads (ops ++ [.otp i p]) = run P pads ops)) := by
  refine ⟨fun c u rnd hc ho => ?_, fun h => ⟨fun u rnd => ?_, fun n r => ?_, fun p => ?_⟩⟩
  · rw [run_snoc]
    simp only [step, hc]
    rw [if_pos (show c.connected = true ∧ c.receiver = none from ho)]
    refine ⟨rfl, fun j hj => ?_⟩
    simp only; rw [getElem?_set' _ _ _ _ (lt_of_some hc), if_neg (Ne.symm hj)]
  all_goals
    rw [run_snoc]
    simp only [step]
    split
    · rfl
    · rename_i c hc
      exact if_neg (show ¬ (c.connected = true ∧ c.receiver = none) from h c hc)

/-! ## Logins that take their time -/

theorem inFlight_lt (h : List Op) : ∀ n ∈ (AmpAuth.run h).inFlight, n < (AmpAuth.run h).logins := by
  induction h using List.reverseRecOn with
  | nil => intro n hn; simp [AmpAuth.run, Conn.new] at hn
  | append_singleton h o ih =>
    have hlog : ∀ (st : Conn) (c : Creds), (∀ n ∈ st.inFlight, n < st.logins) →
        ∀ n ∈ (login_ st c).inFlight, n < (login_ st c).logins := by
      intro st c hst n hn
      simp only [login_, List.mem_append, List.mem_singleton] at hn ⊢
      rcases hn with hn | rfl
      · exact Nat.lt_succ_of_lt (hst n hn)
      · exact Nat.lt_succ_self _
    rw [AmpAuth.run_snoc]
    cases o with
    | passwordLogin u r => simp only [AmpAuth.step]; split <;> exact ih
    | response n r =>
      simp only [AmpAuth.step]; split
      · unfold passwordChallengeResponse; split
        · exact ih
        · exact hlog _ _ ih
      · exact ih
    | otp p =>
      simp only [AmpAuth.step]; split
      · exact hlog _ _ ih
      · exact ih
    | complete n ok =>
      simp only [AmpAuth.step, complete]; split
      · split
        · exact fun m hm => ih m (List.mem_of_mem_erase hm)
        · exact fun m hm => ih m (List.mem_of_mem_erase hm)
      · exact ih
    | lose b =>
      simp only [AmpAuth.step]; split
      · simp only [connectionLost]; split
        · exact ih
        · split <;> exact ih
      · exact ih

theorem outcome_inFlight (c : Conn) (creds : Creds) (v : Except PyErr Bytes) (hn : c.logins ∉ c.inFlight) :
    ((outcome P c.logins v).foldl AmpAuth.step (login_ c creds)).inFlight =
      c.inFlight ++ (match v with
        | .error _ => []
        | .ok a => if P.realm a = .later then [c.logins] else []) := by
  have hin : c.logins ∈ (login_ c creds).inFlight := by simp [login_]
  have he : (login_ c creds).inFlight.erase c.logins = c.inFlight := by
    simp only [login_]
    rw [List.erase_append_right _ hn]
    simp
  cases v with
  | error e => simp only [outcome, List.foldl, AmpAuth.step, complete, if_pos hin]; simpa using he
  | ok a =>
    cases hr : P.realm a with
    | avatar => simp only [outcome, hr, List.foldl, AmpAuth.step, complete, if_pos hin]; simpa using he
    | fails e => simp only [outcome, hr, List.foldl, AmpAuth.step, complete, if_pos hin]; simpa using he
    | later => simp [outcome, hr, login_]

/-- **C113.**  The logins of a connection that wait for the realm: one is added by each login for which the realm takes its
time, and none by any other… -/
theorem waiting_exact (hw : ∀ t, pads = some t → t.WF) (ops : List SOp) (i : Nat) (c : Conn)
    (hc : (run P pads ops).conns[i]? = some c) (ho : c.Open) (o : SOp) (creds : Creds) (hg : Gives i ops o creds) :
    ∃ c', (run P pads (ops ++ [o])).conns[i]? = some c' ∧
      c'.inFlight = c.inFlight ++ (match verdictOf P pads (run P pads ops).log creds with
        | .error _ => []
        | .ok a => if P.realm a = .later then [c.logins] else []) := by
  have hs : run P pads (ops ++ [o]) = login P (run P pads ops) i c creds := by
    rw [run_snoc]
    exact step_login P _ i c hc ho o creds ((givesAt_iff P pads ops i c hc ho o creds).2 hg)
  have hn : c.logins ∉ c.inFlight := by
    obtain ⟨h, rfl, -⟩ := (conn_is_run P pads ops).2 i c hc
    exact fun hn => Nat.lt_irrefl _ (inFlight_lt h _ hn)
  rw [hs, login_eq, run_check P pads hw]
  refine ⟨_, ?_, outcome_inFlight P c creds _ hn⟩
  simp only; rw [getElem?_set' _ _ _ _ (lt_of_some hc), if_pos rfl]

/-- …and when the realm answers, the client is told, if it is still there, and the avatar gets the connection; answers
that nobody waits for change nothing. -/
theorem late_exact (ops : List SOp) (i n : Nat) (e : Option PyErr) (c : Conn)
    (hc : (run P pads ops).conns[i]? = some c) :
    let s := run P pads ops
    let s' := run P pads (ops ++ [.fire i n e])
    (n ∉ c.inFlight → s' = s) ∧
    (n ∈ c.inFlight →
      s'.log = s.log ++ (if c.connected then [.reply i (match e with
        | none => .done
        | some e => told e)] else []) ∧
      (∃ c', s'.conns[i]? = some c' ∧ c'.inFlight = c.inFlight.erase n ∧ c'.connected = c.connected ∧
        (e = none → c'.receiver = some n ∧ c'.logout = some n ∧ c'.log = c.log ++ [.loggedIn n]) ∧
        (e ≠ none → c'.receiver = c.receiver ∧ c'.logout = c.logout ∧ c'.log = c.log ++ [.rejected n])) ∧
      ∀ j, j ≠ i → s'.conns[j]? = s.conns[j]?) := by
  intro s s'
  have hs : s' = step P s (.fire i n e) := run_snoc P pads ops _
  refine ⟨fun hn => ?_, fun hn => ?_⟩
  · rw [hs]; simp only [step, s, hc]; rw [if_neg hn]
  · rw [hs]
    simp only [step, s, hc]
    rw [if_pos hn]
    refine ⟨?_, ⟨complete c n e.isNone, ?_, ?_⟩, fun j hj => ?_⟩
    · cases e <;> simp [replyTo_eq]
    · simp only; rw [getElem?_set' _ _ _ _ (lt_of_some hc), if_pos rfl]
    · cases e with
      | none => simp [complete, hn]
      | some e => simp [complete, hn]
    · simp only; rw [getElem?_set' _ _ _ _ (lt_of_some hc), if_neg (Ne.symm hj)]

/-! ## Pads -/

/-- The attempts with a pad: connection and login. -/
def tries (p : Bytes) : Ev → Option (Nat × Nat)
  | .verdict i n (.pad q) _ => if q = p then some (i, n) else none
  | _ => none

/-- Those that were accepted, and as whom. -/
def accepted (p : Bytes) : Ev → Option (Nat × Nat × Bytes)
  | .verdict i n (.pad q) (.ok a) => if q = p then some (i, n, a) else none
  | _ => none

theorem tries_nil (p : Bytes) (log : List Ev) : log.filterMap (tries p) = [] ↔ ¬ Attempted p log := by
  rw [List.filterMap_eq_nil_iff]
  constructor
  · rintro h ⟨i, n, r, hm⟩
    have := h _ hm
    simp [tries] at this
  · intro h e he
    cases e with
    | reply i r => rfl
    | verdict i n c r =>
      cases c with
      | password u ch n' r' => rfl
      | pad q =>
        simp only [tries]
        by_cases hq : q = p
        · subst hq; exact absurd ⟨i, n, r, he⟩ h
        · rw [if_neg hq]

/-- **C113.**  A pad is accepted on at most one connection, once: by the first attempt with it on any of them, and with the
avatar id that the table gives; a pad that is not in the table never. -/
theorem pad_once (t : Dict Bytes Bytes) (ht : t.WF) (ops : List SOp) (p : Bytes) :
    (run P (some t) ops).log.filterMap (accepted p) =
      match Dict.get? t p with
      | none => []
      | some a => ((run P (some t) ops).log.filterMap (tries p)).head?.toList.map fun x => (x.1, x.2, a) := by
  have hv := verdict_exact P (some t) (by rintro t' h; cases h; exact ht) ops
  generalize (run P (some t) ops).log = log at hv
  induction log using List.reverseRecOn with
  | nil => cases Dict.get? t p <;> rfl
  | append_singleton log e ih =>
    have ih := ih fun pre post i n c r h => hv pre (post ++ [e]) i n c r (by rw [h]; simp)
    rw [List.filterMap_append, List.filterMap_append, ih]
    cases e with
    | reply i r => cases Dict.get? t p <;> simp [accepted, tries]
    | verdict i n c r =>
      cases c with
      | password u ch n' r' => cases Dict.get? t p <;> simp [accepted, tries]
      | pad q =>
        by_cases hq : q = p
        · subst hq
          have hr := hv log [] i n _ r rfl
          by_cases ha : Attempted q log
          · have hne : log.filterMap (tries q) ≠ [] := fun h => (tries_nil q log).1 h ha
            have : r = .error (.other "UnauthorizedLogin") := by rw [hr]; simp [verdictOf, ha]
            subst this
            cases hl : log.filterMap (tries q) with
            | nil => exact absurd hl hne
            | cons x l => cases Dict.get? t q <;> simp [accepted]
          · have hnil := (tries_nil q log).2 ha
            cases hg : Dict.get? t q with
            | none =>
              have : r = .error (.other "UnauthorizedLogin") := by rw [hr]; simp [verdictOf, ha, hg]
              subst this
              simp [accepted]
            | some a =>
              have : r = .ok a := by rw [hr]; simp [verdictOf, ha, hg]
              subst this
              simp [accepted, tries, hnil]
        · have h1 : accepted p (.verdict i n (.pad q) r) = none := by cases r <;> simp [accepted, hq]
          have h2 : tries p (.verdict i n (.pad q) r) = none := by simp [tries, hq]
          cases Dict.get? t p <;> simp [h1, h2]

/-! ## As if alone -/

/-- An operation of connection `i` as an operation of the first and only connection of another server. -/
def rename (i : Nat) : SOp → Option SOp
  | .accept => none
  | .passwordLogin j u r => if j = i then some (.passwordLogin 0 u r) else none
  | .response j n r => if j = i then some (.response 0 n r) else none
  | .otp j p => if j = i then some (.otp 0 p) else none
  | .fire j n e => if j = i then some (.fire 0 n e) else none
  | .lose j b => if j = i then some (.lose 0 b) else none

/-- The history of a server that has connection `i` and no other. -/
def alone (i : Nat) (ops : List SOp) : List SOp := .accept :: (since i ops).filterMap (rename i)

/-- What is observed of connection `i`, as of the first connection of another server. -/
def about (i : Nat) : Ev → Option Ev
  | .verdict j n c r => if j = i then some (.verdict 0 n c r) else none
  | .reply j r => if j = i then some (.reply 0 r) else none

theorem verdict_from (ops : List SOp) : ∀ j n p r, .verdict j n (.pad p) r ∈ (run P pads ops).log → .otp j p ∈ ops := by
  induction ops using List.reverseRecOn with
  | nil => intro j n p r h; simp [run] at h
  | append_singleton ops o ih =>
    intro j n p r h
    obtain ⟨ext, he, hx⟩ := only_logins P pads ops o
    rw [he] at h
    rcases List.mem_append.1 h with h | h
    · exact List.mem_append_left _ (ih j n p r h)
    · obtain ⟨c, -, -, -, hg⟩ := hx j n _ r h
      cases hg
      simp

theorem about_login (i : Nat) (n : Nat) (creds : Creds) (v : Except PyErr Bytes) (o : Option Reply) :
    (Ev.verdict i n creds v :: o.toList.map (.reply i)).filterMap (about i) =
      Ev.verdict 0 n creds v :: o.toList.map (.reply 0) := by
  cases o <;> simp [about]

theorem about_other (i j : Nat) (h : j ≠ i) (n : Nat) (creds : Creds) (v : Except PyErr Bytes) (o : Option Reply) :
    (Ev.verdict j n creds v :: o.toList.map (.reply j)).filterMap (about i) = [] := by
  cases o <;> simp [about, h]

/-- Operations of other connections. -/
theorem step_other (s : Server) (o : SOp) (i : Nat) (hr : rename i o = none) (hi : i < s.conns.length) :
    (step P s o).conns[i]? = s.conns[i]? ∧
    (step P s o).log.filterMap (about i) = s.log.filterMap (about i) := by
  cases o with
  | accept => simp [step, buildProtocol, List.getElem?_append_left hi]
  | passwordLogin j u r =>
    have hj : j ≠ i := by intro e; simp [rename, e] at hr
    simp only [step]
    split
    · exact ⟨rfl, rfl⟩
    · rename_i c hc
      split
      · simp only
        rw [getElem?_set' _ _ _ _ (lt_of_some hc), if_neg hj, List.filterMap_append]
        simp [about, hj]
      · exact ⟨rfl, rfl⟩
  | response j n r =>
    have hj : j ≠ i := by intro e; simp [rename, e] at hr
    simp only [step]
    split
    · exact ⟨rfl, rfl⟩
    · rename_i c hc
      split
      · split
        · simp only
          rw [getElem?_set' _ _ _ _ (lt_of_some hc), if_neg hj, List.filterMap_append]
          simp [about, hj]
        · rw [login_eq]
          simp only
          rw [getElem?_set' _ _ _ _ (lt_of_some hc), if_neg hj, List.filterMap_append, about_other i j hj]
          simp
      · exact ⟨rfl, rfl⟩
  | otp j p =>
    have hj : j ≠ i := by intro e; simp [rename, e] at hr
    simp only [step]
    split
    · exact ⟨rfl, rfl⟩
    · rename_i c hc
      split
      · rw [login_eq]
        simp only
        rw [getElem?_set' _ _ _ _ (lt_of_some hc), if_neg hj, List.filterMap_append, about_other i j hj]
        simp
      · exact ⟨rfl, rfl⟩
  | fire j n e =>
    have hj : j ≠ i := by intro e; simp [rename, e] at hr
    simp only [step]
    split
    · exact ⟨rfl, rfl⟩
    · rename_i c hc
      split
      · simp only
        rw [getElem?_set' _ _ _ _ (lt_of_some hc), if_neg hj, List.filterMap_append]
        refine ⟨rfl, ?_⟩
        split <;> simp [about, hj]
      · exact ⟨rfl, rfl⟩
  | lose j b =>
    have hj : j ≠ i := by intro e; simp [rename, e] at hr
    simp only [step]
    split
    · exact ⟨rfl, rfl⟩
    · rename_i c hc
      split
      · simp only
        rw [getElem?_set' _ _ _ _ (lt_of_some hc), if_neg hj]
        exact ⟨by trivial, by trivial⟩
      · exact ⟨rfl, rfl⟩

/-- Operations of the connection itself, on two servers. -/
theorem step_same (s s' : Server) (o o' : SOp) (i : Nat) (c : Conn) (hr : rename i o = some o')
    (hc : s.conns[i]? = some c) (hc' : s'.conns[0]? = some c) (hl : s.log.filterMap (about i) = s'.log)
    (hv : ∀ creds, GivesAt i c o creds → (check P s.pads creds).1 = (check P s'.pads creds).1) :
    (step P s o).conns[i]? = (step P s' o').conns[0]? ∧
    (step P s o).log.filterMap (about i) = (step P s' o').log := by
  have hi := lt_of_some hc
  have hi' := lt_of_some hc'
  have hlogin : ∀ creds, (check P s.pads creds).1 = (check P s'.pads creds).1 →
      (login P s i c creds).conns[i]? = (login P s' 0 c creds).conns[0]? ∧
      (login P s i c creds).log.filterMap (about i) = (login P s' 0 c creds).log := by
    intro creds h
    rw [login_eq, login_eq, h]
    simp only
    rw [getElem?_set' _ _ _ _ hi, getElem?_set' _ _ _ _ hi', if_pos rfl, if_pos rfl, List.filterMap_append,
      about_login, hl]
    exact ⟨rfl, rfl⟩
  cases o with
  | accept => cases hr
  | passwordLogin j u r =>
    simp only [rename] at hr
    split at hr <;> cases hr
    rename_i hj; subst hj
    simp only [step, hc, hc']
    split
    · simp only
      rw [getElem?_set' _ _ _ _ hi, getElem?_set' _ _ _ _ hi', if_pos rfl, if_pos rfl, List.filterMap_append, hl]
      simp [about]
    · exact ⟨by rw [hc, hc'], hl⟩
  | response j n r =>
    simp only [rename] at hr
    split at hr <;> cases hr
    rename_i hj; subst hj
    simp only [step, hc, hc']
    split
    · cases ha : c.auth with
      | none =>
        simp only
        rw [getElem?_set' _ _ _ _ hi, getElem?_set' _ _ _ _ hi', if_pos rfl, if_pos rfl, List.filterMap_append, hl]
        simp [about]
      | some x => exact hlogin _ (hv _ (.response n r x.1 x.2 (by rw [ha])))
    · exact ⟨by rw [hc, hc'], hl⟩
  | otp j p =>
    simp only [rename] at hr
    split at hr <;> cases hr
    rename_i hj; subst hj
    simp only [step, hc, hc']
    split
    · exact hlogin _ (hv _ (.otp p))
    · exact ⟨by rw [hc, hc'], hl⟩
  | fire j n e =>
    simp only [rename] at hr
    split at hr <;> cases hr
    rename_i hj; subst hj
    simp only [step, hc, hc']
    split
    · simp only
      rw [getElem?_set' _ _ _ _ hi, getElem?_set' _ _ _ _ hi', if_pos rfl, if_pos rfl, List.filterMap_append, hl]
      refine ⟨rfl, ?_⟩
      split <;> simp [about]
    · exact ⟨by rw [hc, hc'], hl⟩
  | lose j b =>
    simp only [rename] at hr
    split at hr <;> cases hr
    rename_i hj; subst hj
    simp only [step, hc, hc']
    split
    · simp only
      rw [getElem?_set' _ _ _ _ hi, getElem?_set' _ _ _ _ hi', if_pos rfl, if_pos rfl, hl]
      exact ⟨rfl, by trivial⟩
    · exact ⟨by rw [hc, hc'], hl⟩

/-- Nothing is observed of a connection before it is made. -/
theorem about_none (ops : List SOp) (i : Nat) (h : accepts ops ≤ i) :
    (run P pads ops).log.filterMap (about i) = [] := by
  induction ops using List.reverseRecOn with
  | nil => rfl
  | append_singleton ops o ih =>
    rw [accepts_snoc] at h
    have ih := ih (by omega)
    have hn : (run P pads ops).conns[i]? = none := by
      rw [List.getElem?_eq_none_iff, conns_length]; omega
    rw [run_snoc]
    -- a server that also has connections up to `i` does the same to the log
    cases o with
    | accept => exact ih
    | passwordLogin j u r =>
      simp only [step]
      split
      · exact ih
      · rename_i c hc
        have hj : j ≠ i := by rintro rfl; rw [hn] at hc; cases hc
        split
        · simp only; rw [List.filterMap_append, ih]; simp [about, hj]
        · exact ih
    | response j n r =>
      simp only [step]
      split
      · exact ih
      · rename_i c hc
        have hj : j ≠ i := by rintro rfl; rw [hn] at hc; cases hc
        split
        · split
          · simp only; rw [List.filterMap_append, ih]; simp [about, hj]
          · rw [login_eq]; simp only; rw [List.filterMap_append, ih, about_other i j hj]; rfl
        · exact ih
    | otp j p =>
      simp only [step]
      split
      · exact ih
      · rename_i c hc
        have hj : j ≠ i := by rintro rfl; rw [hn] at hc; cases hc
        split
        · rw [login_eq]; simp only; rw [List.filterMap_append, ih, about_other i j hj]; rfl
        · exact ih
    | fire j n e =>
      simp only [step]
      split
      · exact ih
      · rename_i c hc
        have hj : j ≠ i := by rintro rfl; rw [hn] at hc; cases hc
        split
        · simp only; rw [List.filterMap_append, ih]; split <;> simp [about, hj]
        · exact ih
    | lose j b =>
      simp only [step]
      split
      · exact ih
      · split
        · exact ih
        · exact ih

theorem attempted_about (log : List Ev) (i : Nat) (p : Bytes) (h : ∀ j n r, .verdict j n (.pad p) r ∈ log → j = i) :
    Attempted p log ↔ Attempted p (log.filterMap (about i)) := by
  constructor
  · rintro ⟨j, n, r, hm⟩
    have := h j n r hm
    subst this
    exact ⟨0, n, r, List.mem_filterMap.2 ⟨_, hm, by simp [about]⟩⟩
  · rintro ⟨j, n, r, hm⟩
    obtain ⟨e, he, hx⟩ := List.mem_filterMap.1 hm
    cases e with
    | reply k r' => simp only [about] at hx; split at hx <;> cases hx
    | verdict k n' c' r' =>
      simp only [about] at hx
      split at hx <;> cases hx
      exact ⟨k, n, r, he⟩

/-- **C113.**  Unless others try its pads, a connection behaves exactly as if it were the only one the server has: the same
verdicts, the same replies in the same order, the same state. -/
theorem as_if_alone (hw : ∀ t, pads = some t → t.WF) (ops : List SOp) (i : Nat) (hi : i < accepts ops)
    (hp : ∀ p, .otp i p ∈ ops → ∀ j, j ≠ i → .otp j p ∉ ops) :
    (run P pads ops).conns[i]? = (run P pads (alone i ops)).conns[0]? ∧
    (run P pads ops).log.filterMap (about i) = (run P pads (alone i ops)).log := by
  induction ops using List.reverseRecOn with
  | nil => simp [accepts] at hi
  | append_singleton ops o ih =>
    by_cases hi' : i < accepts ops
    · have ih := ih hi' fun p h j hj h' => hp p (List.mem_append_left _ h) j hj (List.mem_append_left _ h')
      have hal : alone i (ops ++ [o]) = alone i ops ++ (rename i o).toList := by
        unfold alone
        rw [since_snoc _ _ _ hi', List.filterMap_append]
        cases hr : rename i o <;> simp [hr]
      have hlen : i < (run P pads ops).conns.length := by rw [conns_length]; exact hi'
      rw [run_snoc, hal]
      cases hr : rename i o with
      | none =>
        simp only [Option.toList, List.append_nil]
        obtain ⟨h1, h2⟩ := step_other P (run P pads ops) o i hr hlen
        rw [h1, h2]; exact ih
      | some o' =>
        simp only [Option.toList]
        rw [run_snoc]
        obtain ⟨c, hc⟩ : ∃ c, (run P pads ops).conns[i]? = some c := ⟨_, List.getElem?_eq_getElem hlen⟩
        refine step_same P _ _ o o' i c hr hc (by rw [← ih.1, hc]) ih.2 ?_
        intro creds hg
        rw [run_check P pads hw, run_check P pads hw]
        cases hg with
        | response n r ch u ha => rfl
        | otp p =>
          have hatt : Attempted p (run P pads ops).log ↔ Attempted p (run P pads (alone i ops)).log := by
            rw [← ih.2]
            refine attempted_about _ i p fun j n r hm => ?_
            by_cases hj : j = i
            · exact hj
            · exact absurd (List.mem_append_left _ (verdict_from P pads ops j n p r hm)) (hp p (by simp) j hj)
          unfold verdictOf
          cases pads with
          | none => rfl
          | some t =>
            simp only
            by_cases ha : Attempted p (run P (some t) ops).log
            · rw [if_pos ha, if_pos (hatt.1 ha)]
            · rw [if_neg ha, if_neg (fun h => ha (hatt.2 h))]
    · rw [accepts_snoc] at hi
      have ho : o = .accept := by
        by_cases ho : o = .accept
        · exact ho
        · simp [ho] at hi; omega
      subst ho
      simp only [if_true] at hi
      have hie : i = accepts ops := by omega
      have hal : alone i (ops ++ [.accept]) = [.accept] := by
        rw [hie]; unfold alone; rw [since_new]; rfl
      rw [hal, run_snoc]
      constructor
      · simp only [step, buildProtocol]
        rw [List.getElem?_append_right (by rw [conns_length]; omega), conns_length]
        simp [hie, run, step, buildProtocol]
      · show (run P pads ops).log.filterMap (about i) = []
        exact about_none P pads ops i (by omega)

/-! ## Logging out -/

/-- The realm answers at once. -/
def Prompt : Prop := ∀ a, P.realm a ≠ .later

/-- What an operation is for a connection of a server whose realm answers at once. -/
theorem step_prompt (hP : Prompt P) (s : Server) (o : SOp) (hl : ∀ j, o ≠ .lose j true) (i : Nat) (c : Conn)
    (h : s.conns[i]? = some c) (hidle : c.inFlight = []) :
    ∃ ops : List AmpAuth.SOp, (step P s o).conns[i]? = some (ops.foldl sstep c) := by
  have hlt := lt_of_some h
  by_cases hr : rename i o = none
  · exact ⟨[], by rw [(step_other P s o i hr hlt).1]; exact h⟩
  have hout : ∀ creds, ∃ ok, outcome P c.logins (check P s.pads creds).1 = [.complete c.logins ok] := by
    intro creds
    cases (check P s.pads creds).1 with
    | error e => exact ⟨false, rfl⟩
    | ok a =>
      cases hra : P.realm a with
      | avatar => exact ⟨true, by simp [outcome, hra]⟩
      | fails e => exact ⟨false, by simp [outcome, hra]⟩
      | later => exact absurd hra (hP a)
  cases o with
  | accept => exact absurd rfl hr
  | passwordLogin j u r =>
    by_cases hj : j = i
    · subst hj
      refine ⟨[.passwordLogin u r], ?_⟩
      simp only [step, h, List.foldl, sstep, AmpAuth.step]
      split
      · simp [getElem?_set', hlt]
      · exact h
    · exact absurd (by simp [rename, hj]) hr
  | response j n r =>
    by_cases hj : j = i
    · subst hj
      simp only [step, h]
      by_cases ho : c.connected ∧ c.receiver = none
      · rw [if_pos ho]
        cases ha : c.auth with
        | none =>
          refine ⟨[.response n r true], ?_⟩
          simp [List.foldl, sstep, AmpAuth.step, ho, getElem?_set', hlt, passwordChallengeResponse, ha, complete, hidle]
        | some x =>
          obtain ⟨ok, hok⟩ := hout (.password x.2 x.1 n r)
          refine ⟨[.response n r ok], ?_⟩
          simp only [login_eq, hok]
          rw [getElem?_set' _ _ _ _ hlt, if_pos rfl]
          simp [sstep, AmpAuth.step, ho, passwordChallengeResponse, ha]
      · rw [if_neg ho]; exact ⟨[], h⟩
    · exact absurd (by simp [rename, hj]) hr
  | otp j p =>
    by_cases hj : j = i
    · subst hj
      simp only [step, h]
      by_cases ho : c.connected ∧ c.receiver = none
      · rw [if_pos ho]
        obtain ⟨ok, hok⟩ := hout (.pad p)
        refine ⟨[.otp p ok], ?_⟩
        simp only [login_eq, hok]
        rw [getElem?_set' _ _ _ _ hlt, if_pos rfl]
        simp [sstep, AmpAuth.step, ho, otpLogin]
      · rw [if_neg ho]; exact ⟨[], h⟩
    · exact absurd (by simp [rename, hj]) hr
  | fire j n e =>
    by_cases hj : j = i
    · subst hj
      refine ⟨[], ?_⟩
      simp [step, h, hidle]
    · exact absurd (by simp [rename, hj]) hr
  | lose j b =>
    by_cases hj : j = i
    · subst hj
      have hb : b = false := by
        cases b with
        | false => rfl
        | true => exact absurd rfl (hl j)
      subst hb
      refine ⟨[.lose], ?_⟩
      simp only [step, h, List.foldl, sstep, AmpAuth.step]
      split
      · simp [getElem?_set', hlt]
      · exact h
    · exact absurd (by simp [rename, hj]) hr

theorem srun_idle (h : List AmpAuth.SOp) : (srun h).inFlight = [] := (SInv.srun h).idle

/-- **C113.**  With a realm that answers at once, on each of the connections: nobody is logged out while it stands, and when
it is lost the one login that succeeded, if any, is logged out exactly once; whatever happens to the others. -/
theorem logged_out (hP : Prompt P) (ops : List SOp) (hl : ∀ j, .lose j true ∉ ops) (i : Nat) (c : Conn)
    (hc : (run P pads ops).conns[i]? = some c) :
    (c.connected = true → ∀ n, .logout n ∉ c.log) ∧
    (c.connected = false → ∀ n, c.log.count (.logout n) = c.log.count (.loggedIn n) ∧
      c.log.count (.loggedIn n) ≤ 1) := by
  suffices h : ∃ h, c = srun h by
    obtain ⟨h, rfl⟩ := h
    exact logout_prompt h
  induction ops using List.reverseRecOn generalizing c with
  | nil => simp [run] at hc
  | append_singleton ops o ih =>
    have ih := ih fun j h => hl j (List.mem_append_left _ h)
    rw [run_snoc] at hc
    by_cases hi : i < (run P pads ops).conns.length
    · obtain ⟨h, hh⟩ := ih _ (List.getElem?_eq_getElem hi)
      obtain ⟨g, hg⟩ := step_prompt P hP (run P pads ops) o (fun j e => hl j (by simp [e])) i _
        (List.getElem?_eq_getElem hi) (by rw [hh]; exact srun_idle h)
      rw [hg] at hc
      cases hc
      exact ⟨h ++ g, by rw [hh]; simp [srun, List.foldl_append]⟩
    · have hlt := lt_of_some hc
      rw [step_length] at hlt
      have ho : o = .accept := by
        by_cases ho : o = .accept
        · exact ho
        · simp [ho] at hlt; omega
      subst ho
      simp only [step, buildProtocol] at hc
      rw [List.getElem?_append_right (by omega)] at hc
      refine ⟨[], ?_⟩
      cases hk : i - (run P pads ops).conns.length with
      | zero => rw [hk] at hc; simp at hc; rw [← hc]; rfl
      | succ k => rw [hk] at hc; simp at hc

/-! ## Examples, and what does not hold -/

/-- A portal with the identity for a hash, one user `A` with password `pw`, and a realm that knows avatars below 100, raises
`NotImplementedError` for others, and takes its time for 99. -/
def demo : Portal where
  sha1 := id
  users := some [([65], .bytes [112, 119])]
  realm := fun a => if a = [99] then .later else if a.all (· < 100) then .avatar else .fails .notImplementedError

/-- Non-vacuity: three connections; the pad of the first is refused to the second, which then gives a password; its loss
logs it out. -/
example : (run demo (some [([1], [7]), ([2], [200])])
    [.accept, .accept, .passwordLogin 1 [65] [5], .otp 0 [1], .otp 1 [1], .accept, .otp 2 [2], .response 2 [6] [0],
      .response 1 [6] [5, 32, 6, 32, 112, 119], .lose 1 false]).log =
    [.reply 1 (.challenge [5]), .verdict 0 0 (.pad [1]) (.ok [7]), .reply 0 .done,
     .verdict 1 0 (.pad [1]) (.error unauthorized), .reply 1 (.error "UNAUTHORIZED_LOGIN"),
     .verdict 2 0 (.pad [2]) (.ok [200]), .reply 2 (.error "NOT_IMPLEMENTED_ERROR"), .reply 2 .quit,
     .verdict 1 1 (.password [65] [5] [6] [5, 32, 6, 32, 112, 119]) (.ok [65]), .reply 1 .done] := by decide

/-- **C113 fails**: a pad is used up even if nobody gets in with it: the realm has no such avatar, or the connection is lost
before the realm has answered.  The pad is refused ever after. -/
theorem pad_wasted_fails :
    (run demo (some [([2], [200])]) [.accept, .otp 0 [2], .otp 0 [2]]).log =
      [.verdict 0 0 (.pad [2]) (.ok [200]), .reply 0 (.error "NOT_IMPLEMENTED_ERROR"),
       .verdict 0 1 (.pad [2]) (.error unauthorized), .reply 0 (.error "UNAUTHORIZED_LOGIN")] ∧
    (run demo (some [([3], [99])]) [.accept, .otp 0 [3], .lose 0 false, .accept, .otp 1 [3]]).log =
      [.verdict 0 0 (.pad [3]) (.ok [99]),
       .verdict 1 0 (.pad [3]) (.error unauthorized), .reply 1 (.error "UNAUTHORIZED_LOGIN")] := by decide

/-- **C113 fails**: a response that comes before `PasswordLogin` is not refused with an error that a client can handle, but
costs it the connection; so do credentials of a kind for which the portal has no checker. -/
theorem undeclared_fails (i : Nat) (n r : Bytes) :
    (∀ (ops : List SOp) (c : Conn), (run P pads ops).conns[i]? = some c → c.Open → lastChallenge (mine i ops) = none →
      (run P pads (ops ++ [.response i n r])).log = (run P pads ops).log ++ [.reply i .quit]) ∧
    (run demo none [.accept, .otp 0 [2]]).log = [.verdict 0 0 (.pad [2]) (.error unhandled), .reply 0 .quit] := by
  refine ⟨fun ops c hc ho hn => ?_, by decide⟩
  obtain ⟨h, rfl, hm⟩ := (conn_is_run P pads ops).2 i c hc
  have ha : (AmpAuth.run h).auth = none := by
    rw [auth_run h ho, ← lastChallenge_filter, hm, hn]
  rw [run_snoc]
  simp only [step, hc]
  rw [if_pos (show (AmpAuth.run h).connected = true ∧ (AmpAuth.run h).receiver = none from ho)]
  simp only [ha]
  rfl

end Verif.AmpServer
