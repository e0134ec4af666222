import Verif.Model.AmpOverlap
import Verif.Props.AmpAuth
import Verif.Py.Sha1
/-!
# C137: of logins that overlap on one connection, the one that asked last gets in
-/
namespace Verif.AmpOverlap
open Verif.Py Verif.AmpAuth

/-! ## Specification -/

/-- The latest `PasswordLogin`: whose, and the challenge that was given for it. -/
def lastAsk : List Act → Option (Nat × Bytes) :=
  List.foldl (fun s a => match a with
    | .ask i c => some (i, c)
    | .answer _ => s) none

/-- The latest challenge that attempt `i` was given. -/
def asked (i : Nat) : List Act → Option Bytes :=
  List.foldl (fun s a => match a with
    | .ask j c => if j = i then some c else s
    | .answer _ => s) none

/-- Nobody has got in. -/
def nobodyIn (l : List (Nat × Except PyErr Unit)) : Prop := ∀ i, (i, .ok ()) ∉ l

/-! ## Lemmas -/

variable (sha1 : Bytes → Bytes) (users : Dict Bytes Text) (attempt : Nat → Attempt)

theorem run_snoc (acts : List Act) (a : Act) :
    run sha1 users attempt (acts ++ [a]) = act sha1 users attempt (run sha1 users attempt acts) a := by
  simp [run, List.foldl_append]

/-- The responder on an open connection that has given a challenge. -/
theorem respond_open (st : Conn) (hst : st.Open) (c u cnonce response : Bytes) (ha : st.auth = some (c, u)) :
    (respond sha1 users st cnonce response).2.auth = some (c, u) ∧
    (respond sha1 users st cnonce response).2.connected = true ∧
    ((respond sha1 users st cnonce response).1 = .ok () ∧
        (respond sha1 users st cnonce response).2.receiver = some st.logins ∨
      (respond sha1 users st cnonce response).1 ≠ .ok () ∧ (respond sha1 users st cnonce response).2.receiver = none) ∧
    (respond sha1 users st cnonce response).1 =
      match Dict.get? users u with
      | none => .error unauthorized
      | some q =>
        match ensureBinary q with
        | .error e => .error e
        | .ok q => if sha1 (c ++ [32] ++ cnonce ++ [32] ++ q) = response then .ok () else .error unauthorized := by
  unfold respond
  rw [if_pos (show st.connected = true ∧ st.receiver = none from hst)]
  simp only [respondNow, ha, requestAvatar, checkPassword, calcResponse, message]
  have hs : step st (.response cnonce response) = login_ st (.password u c cnonce response) := by
    simp only [step]; rw [if_pos ⟨hst.1, hst.2⟩]; simp [passwordChallengeResponse, ha]
  rw [hs]
  have h1 : ∀ ok, (step (login_ st (.password u c cnonce response)) (.complete st.logins ok)).auth = some (c, u) ∧
      (step (login_ st (.password u c cnonce response)) (.complete st.logins ok)).connected = true ∧
      (step (login_ st (.password u c cnonce response)) (.complete st.logins ok)).receiver =
        if ok then some st.logins else none := by
    intro ok
    cases ok <;> simp [step, complete, login_, ha, hst.1, hst.2]
  cases Dict.get? users u with
  | none => exact ⟨(h1 false).1, (h1 false).2.1, .inr ⟨by simp, (h1 false).2.2⟩, rfl⟩
  | some q =>
    dsimp only
    cases ensureBinary q with
    | error e => exact ⟨(h1 false).1, (h1 false).2.1, .inr ⟨by simp, (h1 false).2.2⟩, rfl⟩
    | ok q =>
      dsimp only
      by_cases he : sha1 (c ++ [32] ++ cnonce ++ [32] ++ q) = response
      · rw [if_pos he, beq_iff_eq.2 he]
        exact ⟨(h1 true).1, (h1 true).2.1, .inl ⟨rfl, (h1 true).2.2⟩, rfl⟩
      · rw [if_neg he, beq_eq_false_iff_ne.2 he]
        exact ⟨(h1 false).1, (h1 false).2.1, .inr ⟨by simp, (h1 false).2.2⟩, rfl⟩

/-- What is known after any acts. -/
structure Inv (acts : List Act) (s : St) : Prop where
  conn : s.conn.connected = true
  /-- the connection is open as long as nobody got in, and then … -/
  opened : s.conn.receiver = none ↔ nobodyIn s.ended
  /-- … it knows the latest challenge … -/
  auth : s.conn.receiver = none → s.conn.auth = (lastAsk acts).map fun x => (x.2, (attempt x.1).user)
  /-- … and the attempts were given theirs -/
  got : s.conn.receiver = none → ∀ i, s.got.lookup i = asked i acts
  /-- nobody is given a challenge before one is asked for -/
  some_ask : ∀ i c, s.got.lookup i = some c → (lastAsk acts).isSome
  one : (s.ended.filter fun x => x.2 == .ok ()).length ≤ 1

theorem lastAsk_ask (acts : List Act) (i : Nat) (c : Bytes) : lastAsk (acts ++ [.ask i c]) = some (i, c) := by
  simp [lastAsk, List.foldl_append]

theorem lastAsk_answer (acts : List Act) (i : Nat) : lastAsk (acts ++ [.answer i]) = lastAsk acts := by
  simp [lastAsk, List.foldl_append]

theorem asked_ask (acts : List Act) (i j : Nat) (c : Bytes) :
    asked i (acts ++ [.ask j c]) = if j = i then some c else asked i acts := by
  simp [asked, List.foldl_append]

theorem asked_answer (acts : List Act) (i j : Nat) : asked i (acts ++ [.answer j]) = asked i acts := by
  simp [asked, List.foldl_append]

theorem nobodyIn_cons (i : Nat) (r : Except PyErr Unit) (l : List (Nat × Except PyErr Unit)) :
    nobodyIn ((i, r) :: l) ↔ r ≠ .ok () ∧ nobodyIn l := by
  unfold nobodyIn
  constructor
  · intro h
    exact ⟨fun e => h i (by rw [e]; exact List.mem_cons_self), fun j hj => h j (List.mem_cons_of_mem _ hj)⟩
  · rintro ⟨h1, h2⟩ j hj
    rcases List.mem_cons.1 hj with e | hj
    · cases e; exact h1 rfl
    · exact h2 j hj

theorem nobodyIn_filter (l : List (Nat × Except PyErr Unit)) (h : nobodyIn l) :
    (l.filter fun x => x.2 == .ok ()) = [] := by
  rw [List.filter_eq_nil_iff]
  rintro ⟨i, r⟩ hm hr
  have : r = .ok () := by simpa using hr
  subst this; exact h i hm

theorem inv (acts : List Act) : Inv attempt acts (run sha1 users attempt acts) := by
  induction acts using List.reverseRecOn with
  | nil =>
    exact ⟨rfl, ⟨fun _ _ h => (by cases h), fun _ => rfl⟩, fun _ => rfl, fun _ _ => rfl, fun _ _ h => (by cases h), by simp [run]⟩
  | append_singleton acts a ih =>
    rw [run_snoc]
    generalize run sha1 users attempt acts = s at ih
    cases a with
    | ask i c =>
      simp only [act, ask]
      by_cases ho : s.conn.receiver = none
      · rw [if_pos ⟨ih.conn, ho⟩]
        refine ⟨ih.conn, ih.opened, fun _ => by rw [lastAsk_ask]; rfl, fun _ j => ?_, fun _ _ _ => by rw [lastAsk_ask]; rfl, ih.one⟩
        rw [asked_ask, List.lookup_cons, ih.got ho]
        by_cases e : i = j
        · rw [if_pos e, e]; simp
        · rw [if_neg e, beq_eq_false_iff_ne.2 (Ne.symm e)]
      · rw [if_neg (fun h => ho h.2)]
        refine ⟨ih.conn, ?_, fun h => absurd h ho, fun h => absurd h ho, fun _ _ _ => by rw [lastAsk_ask]; rfl, ?_⟩
        · rw [nobodyIn_cons, ← ih.opened]; simp
        · simpa [List.filter_cons] using ih.one
    | answer i =>
      simp only [act, answer]
      cases hg : s.got.lookup i with
      | none =>
        refine ⟨ih.conn, ih.opened, fun h => by rw [lastAsk_answer]; exact ih.auth h, fun h j => by rw [asked_answer]; exact ih.got h j,
          fun j c h => by rw [lastAsk_answer]; exact ih.some_ask j c h, ih.one⟩
      | some c =>
        dsimp only
        cases hd : determineFrom sha1 (attempt i).nonce c (attempt i).password with
        | error e =>
          refine ⟨ih.conn, ?_, fun h => by rw [lastAsk_answer]; exact ih.auth h, fun h j => by rw [asked_answer]; exact ih.got h j,
            fun j c h => by rw [lastAsk_answer]; exact ih.some_ask j c h, ?_⟩
          · rw [nobodyIn_cons, ← ih.opened]; simp
          · simpa [List.filter_cons] using ih.one
        | ok r =>
          obtain ⟨cn, rs⟩ := r
          dsimp only
          by_cases ho : s.conn.receiver = none
          · obtain ⟨⟨j, c'⟩, hl⟩ := Option.isSome_iff_exists.1 (ih.some_ask i c hg)
            have ha := ih.auth ho
            rw [hl] at ha
            obtain ⟨h1, h2, h3, _⟩ := respond_open sha1 users s.conn ⟨ih.conn, ho⟩ c' (attempt j).user cn rs ha
            refine ⟨h2, ?_, fun h => by rw [lastAsk_answer, hl]; exact h1, fun h j => by rw [asked_answer]; exact ih.got ho j,
              fun j c h => by rw [lastAsk_answer]; exact ih.some_ask j c h, ?_⟩
            · rw [nobodyIn_cons, ← ih.opened]
              rcases h3 with ⟨e, h3⟩ | ⟨e, h3⟩ <;> rw [h3] <;> simp [e, ho]
            · rw [List.filter_cons, nobodyIn_filter _ (ih.opened.1 ho)]
              split <;> simp
          · have : respond sha1 users s.conn cn rs = (.error (.other "UnhandledCommand"), s.conn) := if_neg (fun h => ho h.2)
            rw [this]
            refine ⟨ih.conn, ?_, fun h => absurd h ho, fun h => absurd h ho,
              fun j c h => by rw [lastAsk_answer]; exact ih.some_ask j c h, ?_⟩
            · rw [nobodyIn_cons, ← ih.opened]; simp
            · simpa [List.filter_cons] using ih.one

/-! ## C137 -/

/-- **What an answer leads to**, whatever other attempts did before: the server hashes the challenge of whoever asked last, and
their password, and compares it with what the attempt made of its own challenge and password. -/
theorem verdict (acts : List Act) (i j : Nat) (c c' p : Bytes) (h : nobodyIn (run sha1 users attempt acts).ended)
    (hi : asked i acts = some c) (hj : lastAsk acts = some (j, c')) (hp : ensureBinary (attempt i).password = .ok p) :
    (run sha1 users attempt (acts ++ [.answer i])).ended = (i,
      match Dict.get? users (attempt j).user with
      | none => .error unauthorized
      | some q =>
        match ensureBinary q with
        | .error e => .error e
        | .ok q =>
          if sha1 (c' ++ [32] ++ (attempt i).nonce ++ [32] ++ q) = sha1 (c ++ [32] ++ (attempt i).nonce ++ [32] ++ p) then .ok ()
          else .error unauthorized) :: (run sha1 users attempt acts).ended := by
  have hv := inv sha1 users attempt acts
  have ho := hv.opened.2 h
  have ha := hv.auth ho
  rw [hj] at ha
  rw [run_snoc]
  simp only [act, answer]
  rw [hv.got ho, hi]
  simp only [determineFrom, hp]
  rw [(respond_open sha1 users _ ⟨hv.conn, ho⟩ c' (attempt j).user _ _ ha).2.2.2]
  rfl

/-- **The one that asked last gets in** with the right password, however many others asked or were refused before. -/
theorem last_gets_in_partial (acts : List Act) (i : Nat) (c p : Bytes) (q : Text) (h : nobodyIn (run sha1 users attempt acts).ended)
    (hl : lastAsk acts = some (i, c)) (hu : Dict.get? users (attempt i).user = some q)
    (hp : ensureBinary (attempt i).password = .ok p) (hq : ensureBinary q = .ok p) :
    (run sha1 users attempt (acts ++ [.answer i])).ended = (i, .ok ()) :: (run sha1 users attempt acts).ended := by
  have hi : asked i acts = some c := by
    clear h
    induction acts using List.reverseRecOn with
    | nil => cases hl
    | append_singleton acts a ih =>
      cases a with
      | ask j x => rw [lastAsk_ask] at hl; cases hl; rw [asked_ask, if_pos rfl]
      | answer j => rw [lastAsk_answer] at hl; rw [asked_answer]; exact ih hl
  rw [verdict sha1 users attempt acts i i c c p h hi hl hp, hu]
  simp only [hq]
  rw [if_pos trivial]

/-- **Anyone else is refused**, even with the right password, unless the text that they hashed and the text that the server hashes,
which are different, happen to have the same hash. -/
theorem others_refused (acts : List Act) (i j : Nat) (c c' : Bytes) (h : nobodyIn (run sha1 users attempt acts).ended)
    (hi : asked i acts = some c) (hj : lastAsk acts = some (j, c')) (hc : c ≠ c') (hlen : c.length = c'.length)
    (hin : ¬ nobodyIn (run sha1 users attempt (acts ++ [.answer i])).ended) :
    ∃ p q qb, ensureBinary (attempt i).password = .ok p ∧ Dict.get? users (attempt j).user = some q ∧ ensureBinary q = .ok qb ∧
      c' ++ [32] ++ (attempt i).nonce ++ [32] ++ qb ≠ c ++ [32] ++ (attempt i).nonce ++ [32] ++ p ∧
      sha1 (c' ++ [32] ++ (attempt i).nonce ++ [32] ++ qb) = sha1 (c ++ [32] ++ (attempt i).nonce ++ [32] ++ p) := by
  cases hp : ensureBinary (attempt i).password with
  | error e =>
    have hv := inv sha1 users attempt acts
    have ho := hv.opened.2 h
    exfalso; apply hin
    rw [run_snoc]
    simp only [act, answer]
    rw [hv.got ho, hi]
    simp only [determineFrom, hp]
    exact (nobodyIn_cons _ _ _).2 ⟨by simp, h⟩
  | ok p =>
    rw [verdict sha1 users attempt acts i j c c' p h hi hj hp, nobodyIn_cons] at hin
    cases hu : Dict.get? users (attempt j).user with
    | none => rw [hu] at hin; exact absurd ⟨by simp, h⟩ hin
    | some qt =>
      rw [hu] at hin
      dsimp only at hin
      cases hq : ensureBinary qt with
      | error e => rw [hq] at hin; exact absurd ⟨by simp, h⟩ hin
      | ok q =>
        rw [hq] at hin
        dsimp only at hin
        by_cases he : sha1 (c' ++ [32] ++ (attempt i).nonce ++ [32] ++ q) = sha1 (c ++ [32] ++ (attempt i).nonce ++ [32] ++ p)
        · refine ⟨p, qt, q, rfl, rfl, hq, fun hm => hc ?_, he⟩
          exact (message_inj c' c _ _ _ _ hlen.symm rfl hm).1.symm
        · rw [if_neg he] at hin; exact absurd ⟨by simp, h⟩ hin

/-- **At most one gets in**, whatever arrives in whatever order. -/
theorem one_gets_in (acts : List Act) :
    ((run sha1 users attempt acts).ended.filter fun x => x.2 == .ok ()).length ≤ 1 := (inv sha1 users attempt acts).one

/-- **After that every command is the avatar's**: a new attempt, or one that was still going on, ends with the avatar's refusal
(or with its own exception, when the password is no text at all). -/
theorem late (acts : List Act) (h : ¬ nobodyIn (run sha1 users attempt acts).ended) :
    (∀ i c, (run sha1 users attempt (acts ++ [.ask i c])).ended =
      (i, .error (.other "UnhandledCommand")) :: (run sha1 users attempt acts).ended) ∧
    (∀ i p, ((run sha1 users attempt acts).got.lookup i).isSome → ensureBinary (attempt i).password = .ok p →
      (run sha1 users attempt (acts ++ [.answer i])).ended =
        (i, .error (.other "UnhandledCommand")) :: (run sha1 users attempt acts).ended) := by
  have hv := inv sha1 users attempt acts
  have ho : ¬ (run sha1 users attempt acts).conn.receiver = none := fun e => h (hv.opened.1 e)
  refine ⟨fun i c => ?_, fun i p hg hp => ?_⟩
  · rw [run_snoc]; simp only [act, ask]; rw [if_neg (fun h => ho h.2)]
  · obtain ⟨c, hg⟩ := Option.isSome_iff_exists.1 hg
    rw [run_snoc]
    simp only [act, answer, hg, determineFrom, hp]
    rw [show respond sha1 users _ _ _ = _ from if_neg (fun h => ho h.2)]

/-- **A response is 20 bytes**, whatever challenge, nonce and password, and nothing else is ever accepted. -/
theorem response_length (challenge nonce response : Bytes) (pw : Text) :
    (∀ cn r, determineFrom Sha1.digest nonce challenge pw = .ok (cn, r) → cn = nonce ∧ r.length = 20 ∧ ∀ b ∈ r, b < 256) ∧
    (checkPassword Sha1.digest challenge nonce response pw = .ok true → response.length = 20) := by
  constructor
  · intro cn r h
    simp only [determineFrom] at h
    cases hp : ensureBinary pw with
    | error e => rw [hp] at h; cases h
    | ok p =>
      rw [hp] at h; cases h
      exact ⟨rfl, Sha1.digest_length _, Sha1.digest_lt _⟩
  · intro h
    simp only [checkPassword] at h
    cases hp : ensureBinary pw with
    | error e => rw [hp] at h; cases h
    | ok p =>
      rw [hp] at h
      have : (calcResponse Sha1.digest challenge nonce p == response) = true := Except.ok.inj h
      rw [← beq_iff_eq.1 this]
      exact Sha1.digest_length _

/-- The two attempts of the next theorem: both `alice`, with the right password. -/
def two : Nat → Attempt := fun i => ⟨[97], .str [112], [i]⟩

/-- **The right password does not always get in**: with SHA-1, of two overlapping logins with the right password the first is
refused; the second gets in. -/
theorem right_password_fails :
    (run Sha1.digest [([97], .bytes [112])] two [.ask 0 [1], .ask 1 [2], .answer 0]).ended = [(0, .error unauthorized)] ∧
    (run Sha1.digest [([97], .bytes [112])] two [.ask 0 [1], .ask 1 [2], .answer 0, .answer 1]).ended =
      [(1, .ok ()), (0, .error unauthorized)] := by
  decide +kernel

/-- The same attempts one after the other: the first gets in, and the second is the avatar's. -/
example : (run Sha1.digest [([97], .bytes [112])] two [.ask 0 [1], .answer 0, .ask 1 [2]]).ended =
    [(1, .error (.other "UnhandledCommand")), (0, .ok ())] := by
  decide +kernel

/-- Non-vacuity of `verdict` and `others_refused`. -/
example : nobodyIn (run Sha1.digest [([97], .bytes [112])] two [.ask 0 [1], .ask 1 [2]]).ended ∧
    asked 0 [.ask 0 [1], .ask 1 [2]] = some [1] ∧ lastAsk [.ask 0 [1], .ask 1 [2]] = some (1, [2]) := by
  refine ⟨fun i h => ?_, rfl, rfl⟩
  cases h

end Verif.AmpOverlap
