import Verif.Model.AmpAuth
import Mathlib.Data.List.Induction
/-!
# C41–C45: authentication over AMP

`Dict` lookups, list positions and byte concatenation are the specification; events are read off the log.
-/
namespace Verif.AmpAuth
open Verif.Py

/-! ## C41: one-time pads -/

/-- The table after the attempts: exactly the attempted pads are gone. -/
theorem attempts_table {κ ν : Type} [DecidableEq κ] (ps : List κ) : ∀ (pads : Dict κ ν), pads.WF →
    (attempts pads ps).2.WF ∧
    ∀ q, Dict.get? (attempts pads ps).2 q = if q ∈ ps then none else Dict.get? pads q := by
  induction ps with
  | nil => intro pads h; exact ⟨h, fun q => by simp [attempts]⟩
  | cons p ps ih =>
    intro pads h
    cases hg : Dict.get? pads p with
    | none =>
      have hr : requestAvatarId pads p = (.error unauthorized, pads) := by unfold requestAvatarId; rw [hg]
      simp only [attempts, hr]
      refine ⟨(ih pads h).1, fun q => ?_⟩
      rw [(ih pads h).2 q]
      by_cases hq : q = p
      · subst hq; simp [hg]
      · simp [hq]
    | some a =>
      have hr : requestAvatarId pads p = (.ok a, Dict.erase pads p) := by unfold requestAvatarId; rw [hg]
      simp only [attempts, hr]
      refine ⟨(ih _ (h.erase p)).1, fun q => ?_⟩
      rw [(ih _ (h.erase p)).2 q]
      by_cases hq : q = p
      · subst hq; simp [Dict.get?_erase_same h]
      · simp [hq, Dict.get?_erase_other _ _ _ (Ne.symm hq)]

/-- **C41.**  In every sequence of attempts, whoever makes them: an attempt yields the avatar id of the pad
exactly when the table holds the pad and no earlier attempt used it, and `UnauthorizedLogin` otherwise.  An
unknown pad takes nothing from the table. -/
theorem pads_once {κ ν : Type} [DecidableEq κ] (ps : List κ) : ∀ (pads : Dict κ ν), pads.WF →
    ∀ (i : Nat) (p : κ), ps[i]? = some p →
    (attempts pads ps).1[i]? = some
      (if p ∈ ps.take i then .error unauthorized
       else match Dict.get? pads p with
         | some a => .ok a
         | none => .error unauthorized) := by
  induction ps with
  | nil => intro pads _ i p h; simp at h
  | cons p0 ps ih =>
    intro pads hw i p h
    cases i with
    | zero =>
      simp only [List.getElem?_cons_zero, Option.some.injEq] at h
      subst h
      simp only [attempts, requestAvatarId, List.getElem?_cons_zero, List.take_zero, List.not_mem_nil, if_false]
      cases Dict.get? pads p0 <;> rfl
    | succ i =>
      simp only [List.getElem?_cons_succ] at h
      simp only [attempts, List.getElem?_cons_succ, List.take_succ_cons]
      cases hg : Dict.get? pads p0 with
      | none =>
        have hr : requestAvatarId pads p0 = (.error unauthorized, pads) := by unfold requestAvatarId; rw [hg]
        rw [hr, ih pads hw i p h]
        by_cases hq : p = p0
        · subst hq; simp [hg]
        · simp [hq]
      | some a =>
        have hr : requestAvatarId pads p0 = (.ok a, Dict.erase pads p0) := by unfold requestAvatarId; rw [hg]
        rw [hr, ih _ (hw.erase p0) i p h]
        by_cases hq : p = p0
        · subst hq; simp [Dict.get?_erase_same hw]
        · simp [hq, Dict.get?_erase_other _ _ _ (Ne.symm hq)]

/-- Non-vacuity. -/
example : (attempts [(1, "a"), (2, "b")] [2, 3, 2, 1]).1 =
    [.ok "b", .error unauthorized, .error unauthorized, .ok "a"] := by decide

/-! ## C45: the hashed text -/

/-- **C45.**  When challenges have one length and nonces have one length (both are 16 random bytes), the hashed
text determines challenge, nonce and password. -/
theorem message_inj (c c' n n' p p' : Bytes) (hc : c.length = c'.length) (hn : n.length = n'.length)
    (h : message c n p = message c' n' p') : c = c' ∧ n = n' ∧ p = p' := by
  simp only [message, List.append_assoc] at h
  obtain ⟨h1, h2⟩ := List.append_inj h hc
  simp only [List.cons_append, List.nil_append, List.cons.injEq, true_and] at h2
  obtain ⟨h3, h4⟩ := List.append_inj h2 hn
  simp only [List.cons.injEq, true_and] at h4
  exact ⟨h1, h3, h4⟩

/-- Non-vacuity, with spaces in every part. -/
example : message [1, 32] [32, 2] [32] = [1, 32, 32, 32, 2, 32, 32] := by decide

/-- The length of the client's nonce matters and the server does not check it: for every hash function the
response to one challenge made with password `y z` and nonce `x` is accepted for the password `z` under the
nonce `x y`. -/
theorem nonce_length_fails (sha1 : Bytes → Bytes) (challenge x y z : Bytes) :
    checkPassword sha1 challenge (x ++ [32] ++ y) (calcResponse sha1 challenge x (y ++ [32] ++ z)) (.bytes z) =
      .ok true := by
  simp [checkPassword, ensureBinary, calcResponse, message]

/-! ## C42: the right password -/

variable (sha1 : Bytes → Bytes)

/-- A connection on which nobody is logged in yet. -/
def Conn.Open (st : Conn) : Prop := st.connected = true ∧ st.receiver = none

instance (st : Conn) : Decidable st.Open := inferInstanceAs (Decidable (_ ∧ _))

theorem ensureBinary_str_inj (s s' : List Nat) (b : Bytes) (h : ensureBinary (.str s) = .ok b)
    (h' : ensureBinary (.str s') = .ok b) : s = s' := by
  simp only [ensureBinary] at h h'
  cases h1 : utf8Encode s with
  | none => rw [h1] at h; cases h
  | some x =>
    cases h2 : utf8Encode s' with
    | none => rw [h2] at h'; cases h'
    | some y =>
      rw [h1] at h; rw [h2] at h'
      cases h; cases h'
      have e1 := utf8Decode_encode _ _ h1
      have e2 := utf8Decode_encode _ _ h2
      rw [e1] at e2; exact Option.some.inj e2

/-- What the exchange amounts to, for every challenge and nonce: the server compares the two hashes. -/
theorem login_eq (users : Dict Bytes Text) (st : Conn) (hst : st.Open) (rnd nonce u : Bytes) (pw : Text) (p : Bytes)
    (hp : ensureBinary pw = .ok p) :
    (login sha1 users st rnd nonce (some (u, pw))).1 =
      match Dict.get? users u with
      | none => .error unauthorized
      | some q =>
        match ensureBinary q with
        | .error e => .error e
        | .ok q => if sha1 (message rnd nonce q) = sha1 (message rnd nonce p) then .ok () else .error unauthorized := by
  have hs : step st (.passwordLogin u rnd) = { st with auth := some (rnd, u), log := st.log ++ [.challenge rnd] } := by
    simp only [step]; rw [if_pos ⟨hst.1, hst.2⟩]; rfl
  simp only [login, challengeNow, hs, List.getLast?_append_cons, List.getLast?_singleton, Option.some_or,
    determineFrom, hp, respondNow, requestAvatar]
  cases hu : Dict.get? users u with
  | none => rfl
  | some q =>
    simp only [checkPassword]
    cases hq : ensureBinary q with
    | error e => rfl
    | ok q =>
      simp only [calcResponse]
      by_cases he : sha1 (message rnd nonce q) = sha1 (message rnd nonce p)
      · rw [if_pos he]; simp [he]
      · rw [if_neg he]
        have : (sha1 (message rnd nonce q) == sha1 (message rnd nonce p)) = false := by simpa using he
        rw [this]

/-- **C42, acceptance.**  With the correct password — the same bytes, whether either side holds them as `str`
or as `bytes` — the client is accepted, for every hash function, challenge and nonce, and the avatar takes over
the connection. -/
theorem right_password (users : Dict Bytes Text) (st : Conn) (hst : st.Open) (rnd nonce u : Bytes) (pw q : Text)
    (p : Bytes) (hu : Dict.get? users u = some q) (hp : ensureBinary pw = .ok p) (hq : ensureBinary q = .ok p) :
    (login sha1 users st rnd nonce (some (u, pw))).1 = .ok () ∧
    (login sha1 users st rnd nonce (some (u, pw))).2.receiver = some st.logins ∧
    (login sha1 users st rnd nonce (some (u, pw))).2.logout = some st.logins := by
  refine ⟨?_, ?_⟩
  · rw [login_eq sha1 users st hst rnd nonce u pw p hp, hu]
    simp [hq]
  · have hs : step st (.passwordLogin u rnd) =
        { st with auth := some (rnd, u), log := st.log ++ [.challenge rnd] } := by
      simp only [step]; rw [if_pos ⟨hst.1, hst.2⟩]; rfl
    have hc : requestAvatar sha1 users [] (.password u rnd nonce (calcResponse sha1 rnd nonce p)) = .ok u := by
      simp [requestAvatar, hu, checkPassword, hq]
    simp only [login, challengeNow, hs, List.getLast?_append_cons, List.getLast?_singleton, Option.some_or,
      determineFrom, hp, respondNow, hc]
    simp [step, hst.1, hst.2, passwordChallengeResponse, login_, complete]

/-- **C42, rejection.**  Whoever is not accepted gets nothing: the connection stays with the `CredReceiver`, nobody is logged
in, and there is nothing to log out. -/
theorem rejected_gets_nothing (users : Dict Bytes Text) (st : Conn) (hst : st.Open) (rnd nonce : Bytes)
    (c : Option (Bytes × Text)) (e : PyErr) (h : (login sha1 users st rnd nonce c).1 = .error e) :
    (login sha1 users st rnd nonce c).2.receiver = none ∧
    (login sha1 users st rnd nonce c).2.logout = st.logout ∧
    (∀ n, .loggedIn n ∈ (login sha1 users st rnd nonce c).2.log → .loggedIn n ∈ st.log) := by
  cases c with
  | none => exact ⟨hst.2, rfl, fun n h => h⟩
  | some c =>
    obtain ⟨u, pw⟩ := c
    have hs : step st (.passwordLogin u rnd) =
        { st with auth := some (rnd, u), log := st.log ++ [.challenge rnd] } := by
      simp only [step]; rw [if_pos ⟨hst.1, hst.2⟩]; rfl
    simp only [login, challengeNow, hs, List.getLast?_append_cons, List.getLast?_singleton, Option.some_or] at h ⊢
    cases hd : determineFrom sha1 nonce rnd pw with
    | error e => exact ⟨hst.2, rfl, by simp⟩
    | ok r =>
      simp only [hd, respondNow] at h ⊢
      cases hr : requestAvatar sha1 users [] (.password u rnd r.1 r.2) with
      | ok x => rw [hr] at h; cases h
      | error e =>
        simp only [step, hst.1, hst.2, passwordChallengeResponse, login_, complete]
        simp [hst.2]

/-- **C42, rejection.**  A client holding other bytes than the server is accepted only if the two texts that are hashed, which then
are different, happen to have the same hash; an unknown user is never accepted. -/
theorem wrong_password (users : Dict Bytes Text) (st : Conn) (hst : st.Open) (rnd nonce u : Bytes) (pw : Text)
    (p : Bytes) (hp : ensureBinary pw = .ok p)
    (hok : (login sha1 users st rnd nonce (some (u, pw))).1 = .ok ()) :
    ∃ q qb, Dict.get? users u = some q ∧ ensureBinary q = .ok qb ∧
      (qb = p ∨ (rnd ++ [32] ++ nonce ++ [32] ++ qb ≠ rnd ++ [32] ++ nonce ++ [32] ++ p ∧
        sha1 (rnd ++ [32] ++ nonce ++ [32] ++ qb) = sha1 (rnd ++ [32] ++ nonce ++ [32] ++ p))) := by
  rw [login_eq sha1 users st hst rnd nonce u pw p hp] at hok
  cases hu : Dict.get? users u with
  | none => rw [hu] at hok; cases hok
  | some q =>
    rw [hu] at hok
    simp only at hok
    cases hq : ensureBinary q with
    | error e => rw [hq] at hok; cases hok
    | ok qb =>
      rw [hq] at hok
      simp only at hok
      refine ⟨q, qb, rfl, hq, ?_⟩
      by_cases he : sha1 (message rnd nonce qb) = sha1 (message rnd nonce p)
      · by_cases hm : qb = p
        · exact .inl hm
        · exact .inr ⟨fun h => hm (message_inj _ _ _ _ _ _ rfl rfl h).2.2, he⟩
      · rw [if_neg he] at hok; cases hok

/-- A password with a lone surrogate fails on the client, before anything is sent. -/
theorem surrogate_password (users : Dict Bytes Text) (st : Conn) (hst : st.Open) (rnd nonce u : Bytes)
    (s : List Nat) (hs : utf8Encode s = none) :
    (login sha1 users st rnd nonce (some (u, .str s))).1 = .error .unicodeError := by
  have hp : step st (.passwordLogin u rnd) = { st with auth := some (rnd, u), log := st.log ++ [.challenge rnd] } := by
    simp only [step]; rw [if_pos ⟨hst.1, hst.2⟩]; rfl
  simp only [login, challengeNow, hp, List.getLast?_append_cons, List.getLast?_singleton, Option.some_or,
    determineFrom, ensureBinary, hs]

/-- Non-vacuity, with the identity for a hash: `é` is accepted as text and as UTF-8, `e` is not. -/
example : (login id [([65], .bytes [195, 169])] Conn.new [7] [8] (some ([65], .str [233]))).1 = .ok () ∧
    (login id [([65], .bytes [195, 169])] Conn.new [7] [8] (some ([65], .str [101]))).1 = .error unauthorized := by
  decide
example : Conn.new.Open := ⟨rfl, rfl⟩

/-! ## C43: challenges -/

/-- The last `PasswordLogin` of a history: challenge and username. -/
def lastChallenge (ops : List Op) : Option (Bytes × Bytes) :=
  (ops.filterMap fun
    | .passwordLogin u r => some (r, u)
    | _ => none).getLast?

theorem run_snoc (ops : List Op) (o : Op) : run (ops ++ [o]) = step (run ops) o := by
  simp [run, List.foldl_append]

theorem auth_step (st : Conn) (o : Op) (h : ∀ u r, o ≠ .passwordLogin u r) : (step st o).auth = st.auth := by
  cases o with
  | passwordLogin u r => exact absurd rfl (h u r)
  | response n r =>
    simp only [step]; split
    · unfold passwordChallengeResponse; split <;> rfl
    · rfl
  | otp p => simp only [step]; split <;> rfl
  | complete n ok => simp only [step, complete]; split <;> [split <;> rfl; rfl]
  | lose b =>
    simp only [step]; split
    · simp only [connectionLost]; split <;> [rfl; (split <;> rfl)]
    · rfl

/-- Once an avatar or the loss has taken the connection over, the `CredReceiver` never gets it back. -/
theorem open_step (st : Conn) (o : Op) (h : (step st o).Open) : st.Open := by
  unfold Conn.Open at *
  cases o with
  | passwordLogin u r =>
    simp only [step] at h; split at h
    · assumption
    · exact h
  | response n r =>
    simp only [step] at h; split at h
    · assumption
    · exact h
  | otp p =>
    simp only [step] at h; split at h
    · assumption
    · exact h
  | complete n ok =>
    simp only [step, complete] at h
    split at h
    · split at h
      · simp at h
      · exact h
    · exact h
  | lose b =>
    simp only [step] at h; split at h
    · simp only [connectionLost] at h
      split at h
      · simp at h
      · split at h <;> simp at h
    · exact h

theorem auth_run (ops : List Op) : (run ops).Open → (run ops).auth = lastChallenge ops := by
  induction ops using List.reverseRecOn with
  | nil => intro _; rfl
  | append_singleton ops o ih =>
    intro h
    rw [run_snoc] at h ⊢
    have h0 := open_step _ _ h
    have ih := ih h0
    by_cases hp : ∃ u r, o = .passwordLogin u r
    · obtain ⟨u, r, rfl⟩ := hp
      simp only [step]
      rw [if_pos ⟨h0.1, h0.2⟩]
      simp [passwordLogin, lastChallenge]
    · have hp' : ∀ u r, o ≠ .passwordLogin u r := fun u r e => hp ⟨u, r, e⟩
      rw [auth_step _ _ hp', ih]
      cases o with
      | passwordLogin u r => exact absurd rfl (hp' u r)
      | _ => simp [lastChallenge]

/-- **C43.**  After every history, a response either reaches nobody (somebody is logged in or the connection is
gone), or raises `AttributeError` because there was no `PasswordLogin`, or gives the portal credentials holding
the challenge and username of the latest `PasswordLogin`. -/
theorem latest_challenge (ops : List Op) (cnonce response : Bytes) :
    (run (ops ++ [.response cnonce response])).log = (run ops).log ++
      (if (run ops).Open then
        match lastChallenge ops with
        | none => [.raised .attributeError]
        | some (c, u) => [.login (run ops).logins (.password u c cnonce response)]
      else []) := by
  rw [run_snoc]
  simp only [step]
  by_cases h : (run ops).Open
  · rw [if_pos h, if_pos (by exact h)]
    unfold passwordChallengeResponse
    rw [auth_run ops h]
    cases lastChallenge ops with
    | none => rfl
    | some x => rfl
  · rw [if_neg h, if_neg (by exact h)]
    simp

/-- Only a response gives the portal password credentials. -/
theorem only_responses (ops : List Op) (o : Op) (n : Nat) (u c cn r : Bytes)
    (h : .login n (.password u c cn r) ∈ (run (ops ++ [o])).log) :
    .login n (.password u c cn r) ∈ (run ops).log ∨ o = .response cn r := by
  rw [run_snoc] at h
  cases o with
  | passwordLogin u' r' =>
    simp only [step] at h; split at h
    · simp [passwordLogin] at h; exact .inl h
    · exact .inl h
  | response cn' r' =>
    simp only [step] at h; split at h
    · unfold passwordChallengeResponse at h
      split at h
      · simp at h; exact .inl h
      · simp [login_] at h
        rcases h with h | ⟨-, -, -, rfl, rfl⟩
        · exact .inl h
        · exact .inr rfl
    · exact .inl h
  | otp p =>
    simp only [step] at h; split at h
    · simp [otpLogin, login_] at h; exact .inl h
    · exact .inl h
  | complete n' ok =>
    simp only [step, complete] at h
    split at h
    · split at h <;> (simp at h; exact .inl h)
    · exact .inl h
  | lose b =>
    simp only [step] at h; split at h
    · simp only [connectionLost] at h
      split at h
      · simp at h; exact .inl h
      · split at h <;> (simp at h; exact .inl h)
    · exact .inl h

/-- **C43, stale responses.**  A response computed for another challenge of the same length, with any nonce and
any password, is accepted only if the text hashed for it and the text that the server hashes, which are different, happen to have
the same hash. -/
theorem stale_response (c c' n n' p : Bytes) (pw : Text) (hlen : c.length = c'.length) (hne : c ≠ c')
    (h : checkPassword sha1 c n (calcResponse sha1 c' n' p) pw = .ok true) :
    ∃ q, ensureBinary pw = .ok q ∧ c ++ [32] ++ n ++ [32] ++ q ≠ c' ++ [32] ++ n' ++ [32] ++ p ∧
      sha1 (c ++ [32] ++ n ++ [32] ++ q) = sha1 (c' ++ [32] ++ n' ++ [32] ++ p) := by
  unfold checkPassword at h
  cases hb : ensureBinary pw with
  | error e => rw [hb] at h; cases h
  | ok q =>
    rw [hb] at h
    simp only [Except.ok.injEq, beq_iff_eq, calcResponse] at h
    refine ⟨q, rfl, fun e => hne ?_, h⟩
    simp only [List.append_assoc] at e
    exact (List.append_inj e hlen).1

/-- Non-vacuity: two challenges; the response goes with the second. -/
example : (run [.response [1] [2], .passwordLogin [65] [7], .passwordLogin [66] [8], .response [1] [2]]).log =
    [.raised .attributeError, .challenge [7], .challenge [8], .login 0 (.password [66] [8] [1] [2])] := by decide
example : checkPassword id [7] [1] (calcResponse id [8] [1] [65]) (.bytes [65]) = .ok false := by decide

/-- Beside the property: a challenge is not used up by a response.  The same response is accepted again on the
same connection as long as no login has completed. -/
theorem replay_accepted : (run [.passwordLogin [65] [7], .response [1] [2], .complete 0 false, .response [1] [2]]).log =
    [.challenge [7], .login 0 (.password [65] [7] [1] [2]), .rejected 0, .login 1 (.password [65] [7] [1] [2])] := by
  decide

/-! ## C44: logging out -/

def isLogout : Ev → Bool
  | .logout _ => true
  | _ => false

/-- The last completed login in a piece of log. -/
def lastLoggedIn (l : List Ev) : Option Nat :=
  (l.filterMap fun
    | .loggedIn n => some n
    | _ => none).getLast?

def afterEv (o : Option Nat) : Ev → Option Nat
  | .loggedIn n => some n
  | _ => o

theorem lastLoggedIn_snoc (l : List Ev) (e : Ev) : lastLoggedIn (l ++ [e]) = afterEv (lastLoggedIn l) e := by
  cases e <;> simp [lastLoggedIn, afterEv]

/-- What the log looks like. -/
structure LInv (st : Conn) : Prop where
  /-- while connected: nobody was logged out, and `logout` belongs to the last completed login -/
  before : st.connected = true → (∀ b, .lost b ∉ st.log) ∧ (∀ e ∈ st.log, isLogout e = false) ∧
    st.logout = lastLoggedIn st.log
  /-- afterwards: the last login completed before the loss was logged out then, unless `stopReceivingBoxes`
  raised; nobody else -/
  after : st.connected = false → ∃ pre post, ∃ raised : Bool, st.log = pre ++ [.lost raised] ++
    (if raised then [] else (lastLoggedIn pre).toList.map .logout) ++ post ∧ (∀ b, .lost b ∉ pre) ∧
    (∀ e ∈ pre, isLogout e = false) ∧ (∀ e ∈ post, isLogout e = false) ∧ (∀ b, .lost b ∉ post)

theorem LInv.quiet {st st' : Conn} (h : LInv st) (hc : st'.connected = st.connected) (e : Ev)
    (hl : st'.log = st.log ++ [e]) (he : ∀ b, e ≠ .lost b) (hlo : isLogout e = false)
    (ho : st'.logout = afterEv st.logout e) : LInv st' where
  before := by
    intro hcon
    obtain ⟨h1, h2, h3⟩ := h.before (hc ▸ hcon)
    rw [hl]
    refine ⟨fun b => by simp [h1 b, Ne.symm (he b)], ?_, ?_⟩
    · intro x hx
      rcases List.mem_append.1 hx with hx | hx
      · exact h2 x hx
      · simp at hx; subst hx; exact hlo
    · rw [lastLoggedIn_snoc, ho, ← h3]
  after := by
    intro hcon
    obtain ⟨pre, post, raised, e1, e2, e3, e4, e5⟩ := h.after (hc ▸ hcon)
    refine ⟨pre, post ++ [e], raised, by rw [hl, e1]; simp, e2, e3, ?_, fun b => by simp [e5 b, Ne.symm (he b)]⟩
    intro x hx
    rcases List.mem_append.1 hx with hx | hx
    · exact e4 x hx
    · simp at hx; subst hx; exact hlo

theorem LInv.step {st : Conn} (h : LInv st) (o : Op) : LInv (step st o) := by
  cases o with
  | passwordLogin u r =>
    simp only [AmpAuth.step]; split
    · exact h.quiet rfl (.challenge r) rfl (by simp) rfl rfl
    · exact h
  | response n r =>
    simp only [AmpAuth.step]; split
    · unfold passwordChallengeResponse; split
      · exact h.quiet rfl (.raised .attributeError) rfl (by simp) rfl rfl
      · exact h.quiet rfl (.login _ _) rfl (by simp) rfl rfl
    · exact h
  | otp p =>
    simp only [AmpAuth.step]; split
    · exact h.quiet rfl (.login _ _) rfl (by simp) rfl rfl
    · exact h
  | complete n ok =>
    simp only [AmpAuth.step, complete]; split
    · split
      · exact h.quiet rfl (.loggedIn n) rfl (by simp) rfl rfl
      · exact h.quiet rfl (.rejected n) rfl (by simp) rfl rfl
    · exact h
  | lose b =>
    simp only [AmpAuth.step]; split
    · rename_i hc
      obtain ⟨h1, h2, h3⟩ := h.before hc
      simp only [connectionLost]
      cases b with
      | true =>
        refine ⟨fun x => by simp at x, fun _ => ⟨st.log, [], true, by simp, h1, h2, by simp, by simp⟩⟩
      | false =>
        simp only [Bool.false_eq_true, if_false]
        cases hlo : st.logout with
        | none =>
          refine ⟨fun x => by simp at x, fun _ => ⟨st.log, [], false, ?_, h1, h2, by simp, by simp⟩⟩
          rw [← h3, hlo]; simp
        | some n =>
          refine ⟨fun x => by simp at x, fun _ => ⟨st.log, [], false, ?_, h1, h2, by simp, by simp⟩⟩
          rw [← h3, hlo]; simp
    · exact h

theorem LInv.run (ops : List Op) : LInv (run ops) := by
  induction ops using List.reverseRecOn with
  | nil => exact ⟨fun _ => ⟨by simp [AmpAuth.run, Conn.new], by simp [AmpAuth.run, Conn.new], rfl⟩,
      fun h => by simp [AmpAuth.run, Conn.new] at h⟩
  | append_singleton ops o ih => rw [run_snoc]; exact ih.step o

/-- **C44 (partial).**  For every interleaving: nobody is logged out before the connection is lost; at the loss
exactly the login that completed last before it is logged out, once; nothing is logged out later.  So a login is
logged out exactly once unless another one completed between it and the loss, it completed after the loss, or
the avatar's `stopReceivingBoxes` raised.  The missing part is refuted by `overlapping_logins_fails`,
`late_login_fails` and `raising_avatar_fails`. -/
theorem logout_partial (ops : List Op) :
    ((run ops).connected = true → ∀ n, .logout n ∉ (run ops).log) ∧
    ((run ops).connected = false → ∃ pre post, ∃ raised : Bool, (run ops).log = pre ++ [.lost raised] ++
      (if raised then [] else (lastLoggedIn pre).toList.map .logout) ++ post ∧
      (∀ b, .lost b ∉ pre) ∧ (∀ n, .logout n ∉ pre) ∧ (∀ n, .logout n ∉ post) ∧ (∀ b, .lost b ∉ post)) := by
  have h := LInv.run ops
  refine ⟨fun hc n hn => ?_, fun hc => ?_⟩
  · have := (h.before hc).2.1 _ hn
    simp [isLogout] at this
  · obtain ⟨pre, post, raised, e1, e2, e3, e4, e5⟩ := h.after hc
    refine ⟨pre, post, raised, e1, e2, fun n hn => ?_, fun n hn => ?_, e5⟩
    · have := e3 _ hn; simp [isLogout] at this
    · have := e4 _ hn; simp [isLogout] at this

/-- **C44 for portals that answer at once** (`SOp.expand`: every login command is followed by the completion of its
own login, before anything else happens — true of every checker and realm that return results rather than pending
`Deferred`s). -/
inductive SOp where
  | passwordLogin (username rnd : Bytes)
  | response (cnonce response : Bytes) (ok : Bool)
  | otp (pad : Bytes) (ok : Bool)
  | lose
  deriving DecidableEq, Repr

def sstep (st : Conn) : SOp → Conn
  | .passwordLogin u r => step st (.passwordLogin u r)
  | .response n r ok => step (step st (.response n r)) (.complete st.logins ok)
  | .otp p ok => step (step st (.otp p)) (.complete st.logins ok)
  | .lose => step st (.lose false)

def srun (ops : List SOp) : Conn := ops.foldl sstep Conn.new

structure SInv (st : Conn) : Prop where
  idle : st.inFlight = []
  known : ∀ n, .loggedIn n ∈ st.log → n < st.logins
  conn : st.connected = true → st.receiver = none → (∀ n, .loggedIn n ∉ st.log) ∧ (∀ n, .logout n ∉ st.log) ∧
    st.logout = none
  avatar : st.connected = true → ∀ n, st.receiver = some n → st.logout = some n ∧ st.log.count (.loggedIn n) = 1 ∧
    (∀ m, m ≠ n → .loggedIn m ∉ st.log) ∧ (∀ m, .logout m ∉ st.log)
  gone : st.connected = false → ∀ n, st.log.count (.loggedIn n) = st.log.count (.logout n) ∧
    st.log.count (.loggedIn n) ≤ 1

theorem count_snoc (l : List Ev) (e x : Ev) : (l ++ [e]).count x = l.count x + if e = x then 1 else 0 := by
  rw [List.count_append, List.count_singleton]
  by_cases h : e = x <;> simp [h]

theorem SInv.quiet {st st' : Conn} (h : SInv st) (h1 : st'.inFlight = []) (h2 : st.logins ≤ st'.logins)
    (h3 : st'.connected = st.connected) (h4 : st'.receiver = st.receiver) (h5 : st'.logout = st.logout)
    (ex : List Ev) (h6 : st'.log = st.log ++ ex) (h7 : ∀ n, .loggedIn n ∉ ex) (h8 : ∀ n, .logout n ∉ ex) :
    SInv st' where
  idle := h1
  known := by
    intro n hn
    rw [h6, List.mem_append] at hn
    rcases hn with hn | hn
    · exact Nat.lt_of_lt_of_le (h.known n hn) h2
    · exact absurd hn (h7 n)
  conn := by
    intro hc hr
    obtain ⟨a, b, c⟩ := h.conn (h3 ▸ hc) (h4 ▸ hr)
    rw [h6, h5]
    refine ⟨fun n => ?_, fun n => ?_, c⟩
    · simp [a n, h7 n]
    · simp [b n, h8 n]
  avatar := by
    intro hc n hr
    obtain ⟨a, b, c, d⟩ := h.avatar (h3 ▸ hc) n (h4 ▸ hr)
    rw [h6, h5]
    refine ⟨a, ?_, fun m hm => by simp [c m hm, h7 m], fun m => by simp [d m, h8 m]⟩
    rw [List.count_append, b, List.count_eq_zero_of_not_mem (h7 n)]
  gone := by
    intro hc n
    obtain ⟨a, b⟩ := h.gone (h3 ▸ hc) n
    rw [h6, List.count_append, List.count_append, List.count_eq_zero_of_not_mem (h7 n),
      List.count_eq_zero_of_not_mem (h8 n)]
    exact ⟨by simpa using a, by simpa using b⟩

theorem SInv.loginNow {st : Conn} (h : SInv st) (hop : st.connected = true ∧ st.receiver = none) (c : Creds) (ok : Bool) :
    SInv (complete (login_ st c) st.logins ok) := by
  have hin : st.logins ∈ (login_ st c).inFlight := by simp [login_]
  unfold complete
  rw [if_pos hin]
  have hidle : (login_ st c).inFlight.erase st.logins = [] := by simp [login_, h.idle]
  obtain ⟨a, b, d⟩ := h.conn hop.1 hop.2
  cases ok with
  | false =>
    exact h.quiet hidle (Nat.le_succ _) rfl rfl rfl [.login st.logins c, .rejected st.logins]
      (by simp [login_]) (by simp) (by simp)
  | true =>
    refine ⟨hidle, ?_, fun _ hr => by simp at hr, ?_, fun hc => ?_⟩
    · intro n hn
      simp [login_, a n] at hn
      subst hn; exact Nat.lt_succ_self _
    · intro _ n hr
      simp only [if_true, Option.some.injEq] at hr
      subst hr
      refine ⟨rfl, ?_, fun m hm => by simp [login_, a m, hm], fun m => by simp [login_, b m]⟩
      simp only [if_true, login_, count_snoc, List.count_eq_zero_of_not_mem (a st.logins)]
      simp
    · simp [login_, hop.1] at hc

theorem SInv.noLogin {st : Conn} (h : SInv st) (ok : Bool) : SInv (complete st st.logins ok) := by
  unfold complete
  rw [h.idle]
  simpa using h

theorem SInv.sstep {st : Conn} (h : SInv st) (o : SOp) : SInv (sstep st o) := by
  cases o with
  | passwordLogin u r =>
    simp only [AmpAuth.sstep, step]; split
    · exact h.quiet h.idle (Nat.le_refl _) rfl rfl rfl [.challenge r] rfl (by simp) (by simp)
    · exact h
  | response n r ok =>
    simp only [AmpAuth.sstep, step]; split
    · rename_i hop
      unfold passwordChallengeResponse; split
      · have : SInv { st with log := st.log ++ [.raised .attributeError] } :=
          h.quiet h.idle (Nat.le_refl _) rfl rfl rfl [.raised .attributeError] rfl (by simp) (by simp)
        exact this.noLogin ok
      · exact h.loginNow hop _ ok
    · exact h.noLogin ok
  | otp p ok =>
    simp only [AmpAuth.sstep, step]; split
    · rename_i hop; exact h.loginNow hop _ ok
    · exact h.noLogin ok
  | lose =>
    simp only [AmpAuth.sstep, step]; split
    · rename_i hc
      simp only [connectionLost, Bool.false_eq_true, if_false]
      cases hr : st.receiver with
      | none =>
        obtain ⟨a, b, d⟩ := h.conn hc hr
        rw [d]
        refine ⟨h.idle, fun n hn => by simp [a n] at hn, fun x => by simp at x, fun x => by simp at x, fun _ n => ?_⟩
        rw [count_snoc, count_snoc, List.count_eq_zero_of_not_mem (a n), List.count_eq_zero_of_not_mem (b n)]
        simp
      | some m =>
        obtain ⟨a, b, c, d⟩ := h.avatar hc m hr
        rw [a]
        refine ⟨h.idle, fun n hn => h.known n (by simpa using hn), fun x => by simp at x, fun x => by simp at x,
          fun _ n => ?_⟩
        simp only [count_snoc]
        by_cases hn : n = m
        · subst hn
          rw [b, List.count_eq_zero_of_not_mem (d n)]; simp
        · rw [List.count_eq_zero_of_not_mem (c n hn), List.count_eq_zero_of_not_mem (d n)]
          simp [Ne.symm hn]
    · exact h

theorem SInv.srun (ops : List SOp) : SInv (srun ops) := by
  induction ops using List.reverseRecOn with
  | nil => exact ⟨rfl, by simp [AmpAuth.srun, Conn.new], fun _ _ => by simp [AmpAuth.srun, Conn.new],
      fun _ n h => by simp [AmpAuth.srun, Conn.new] at h, fun h => by simp [AmpAuth.srun, Conn.new] at h⟩
  | append_singleton ops o ih =>
    have : AmpAuth.srun (ops ++ [o]) = AmpAuth.sstep (AmpAuth.srun ops) o := by simp [AmpAuth.srun, List.foldl_append]
    rw [this]; exact ih.sstep o

/-- With a portal that answers at once, after the connection is lost every login that completed has been logged
out exactly once, and nothing else has; before that nothing is logged out. -/
theorem logout_prompt (ops : List SOp) :
    ((srun ops).connected = true → ∀ n, .logout n ∉ (srun ops).log) ∧
    ((srun ops).connected = false → ∀ n, (srun ops).log.count (.logout n) = (srun ops).log.count (.loggedIn n) ∧
      (srun ops).log.count (.loggedIn n) ≤ 1) := by
  have h := SInv.srun ops
  refine ⟨fun hc n => ?_, fun hc n => ⟨((h.gone hc n).1).symm, (h.gone hc n).2⟩⟩
  cases hr : (srun ops).receiver with
  | none => exact (h.conn hc hr).2.1 n
  | some m => exact (h.avatar hc m hr).2.2.2 n

/-- Non-vacuity. -/
example : (srun [.passwordLogin [65] [7], .response [1] [2] false, .response [1] [3] true, .otp [9] true, .lose]).log =
    [.challenge [7], .login 0 (.password [65] [7] [1] [2]), .rejected 0, .login 1 (.password [65] [7] [1] [3]),
     .loggedIn 1, .lost false, .logout 1] := by decide

/-- Two logins in flight at once: the first one is never logged out. -/
theorem overlapping_logins_fails : (run [.otp [1], .otp [2], .complete 0 true, .complete 1 true, .lose false]).log =
    [.login 0 (.pad [1]), .login 1 (.pad [2]), .loggedIn 0, .loggedIn 1, .lost false, .logout 1] := by decide

/-- A login that completes after the connection was lost is never logged out (and its avatar is started). -/
theorem late_login_fails : (run [.otp [1], .lose false, .complete 0 true]).log =
    [.login 0 (.pad [1]), .lost false, .loggedIn 0] := by decide

/-- The logout is called once even if the transport reported the loss again: the server forgets it, and the avatar. -/
theorem logout_forgotten (st : Conn) :
    (connectionLost st false).logout = none ∧ (st.logout ≠ none → (connectionLost st false).receiver = none) ∧
    (connectionLost (connectionLost st false) false).log = (connectionLost st false).log ++ [.lost false] := by
  unfold connectionLost
  cases h : st.logout <;> simp [h]

/-- An exception in the avatar's `stopReceivingBoxes` prevents the logout. -/
theorem raising_avatar_fails : (run [.otp [1], .complete 0 true, .lose true]).log =
    [.login 0 (.pad [1]), .loggedIn 0, .lost true] := by decide

end Verif.AmpAuth
