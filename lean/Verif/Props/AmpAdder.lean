import Verif.Model.AmpAdder
import Verif.Props.AmpServer
/-!
# C143: only those who have logged in add, as those they have logged in as
-/
namespace Verif.AmpAdder
open Verif.Py Verif.AmpAuth Verif.AmpServer

variable (P : Portal) (pads : Option (Dict Bytes Bytes))

/-! ## Specification -/

/-- What happened, additions apart. -/
def logins : List Op → List AmpServer.SOp
  | [] => []
  | .auth o :: ops => o :: logins ops
  | .add _ _ _ :: ops => logins ops

/-- At some moment somebody gave credentials on connection `i` that the portal's checker, by its tables and what was tried
before (`verdictOf`, C113), had to accept for the avatar id. -/
def Accepted (ops : List AmpServer.SOp) (i : Nat) (aid : Bytes) : Prop :=
  ∃ pre o post creds, ops = pre ++ o :: post ∧ Gives i pre o creds ∧
    verdictOf P pads (AmpServer.run P pads pre).log creds = .ok aid

/-! ## Helper lemmas -/

theorem logins_append (a b : List Op) : logins (a ++ b) = logins a ++ logins b := by
  induction a with
  | nil => rfl
  | cons o a ih => cases o <;> simp [logins, ih]

theorem run_snoc (ops : List Op) (o : Op) : run P pads (ops ++ [o]) = step P (run P pads ops) o := by
  simp [run, List.foldl_append]

theorem add_server (a : App) (i : Nat) (l r : Int) : (step P a (.add i l r)).server = a.server := by
  simp only [step]
  split
  · rfl
  · split
    · split
      · rfl
      · split <;> rfl
    · rfl

theorem server_eq (ops : List Op) : (run P pads ops).server = AmpServer.run P pads (logins ops) := by
  induction ops using List.reverseRecOn with
  | nil => rfl
  | append_singleton ops o ih =>
    rw [run_snoc, logins_append]
    cases o with
    | auth o => rw [show logins [Op.auth o] = [o] from rfl, AmpServer.run_snoc, ← ih]; rfl
    | add i l r => rw [show logins [Op.add i l r] = [] from rfl, List.append_nil, ← ih, add_server]

theorem Accepted.mono {ops : List AmpServer.SOp} {i : Nat} {aid : Bytes} (h : Accepted P pads ops i aid) (more : List AmpServer.SOp) :
    Accepted P pads (ops ++ more) i aid := by
  obtain ⟨pre, o, post, creds, rfl, h2⟩ := h
  exact ⟨pre, o, post ++ more, creds, by simp, h2⟩

/-- Who is said to be somebody has proved it. -/
theorem verdict_accepted (hw : ∀ t, pads = some t → t.WF) (ops : List AmpServer.SOp) :
    ∀ i n creds aid, .verdict i n creds (.ok aid) ∈ (AmpServer.run P pads ops).log → Accepted P pads ops i aid := by
  induction ops using List.reverseRecOn with
  | nil => intro i n creds aid h; simp [AmpServer.run] at h
  | append_singleton ops o ih =>
    intro i n creds aid h
    obtain ⟨ext, e, hext⟩ := only_logins P pads ops o
    rw [e] at h
    rcases List.mem_append.1 h with h | h
    · exact (ih _ _ _ _ h).mono P pads [o]
    · obtain ⟨c, hc, ho, hn, hg⟩ := hext _ _ _ _ h
      have hx := (login_exact P pads hw ops i c hc ho o creds hg).1
      rw [hx] at e
      have e := List.append_cancel_left e
      rw [← e] at h
      refine ⟨ops, o, [], creds, rfl, hg, ?_⟩
      rcases List.mem_cons.1 h with h | h
      · simp only [AmpServer.Ev.verdict.injEq] at h
        exact h.2.2.2.symm
      · simp at h

/-- The log only grows. -/
theorem log_grows (ops : List AmpServer.SOp) (o : AmpServer.SOp) : ∃ ext, (AmpServer.run P pads (ops ++ [o])).log = (AmpServer.run P pads ops).log ++ ext :=
  let ⟨ext, e, _⟩ := only_logins P pads ops o
  ⟨ext, e⟩

theorem avatarId_some {log : List AmpServer.Ev} {i n : Nat} {creds : Creds} {aid : Bytes} (h : .verdict i n creds (.ok aid) ∈ log) :
    ∃ a, avatarId log i n = some a := by
  cases e : avatarId log i n with
  | some a => exact ⟨a, rfl⟩
  | none =>
    unfold avatarId at e
    rw [List.findSome?_eq_none_iff] at e
    have := e _ h
    simp at this

theorem avatarId_mem {log : List AmpServer.Ev} {i n : Nat} {a : Bytes} (h : avatarId log i n = some a) :
    ∃ creds, .verdict i n creds (.ok a) ∈ log := by
  unfold avatarId at h
  obtain ⟨ev, hm, he⟩ := List.exists_of_findSome?_eq_some h
  split at he
  · split at he
    · rename_i hh
      obtain ⟨rfl, rfl⟩ := hh
      cases he
      exact ⟨_, hm⟩
    · cases he
  · cases he

theorem avatarId_append {log : List AmpServer.Ev} {i n : Nat} {a : Bytes} (h : avatarId log i n = some a) (ext : List AmpServer.Ev) :
    avatarId (log ++ ext) i n = some a := by
  unfold avatarId at h ⊢
  rw [List.findSome?_append, h]
  rfl

/-- Logins that have an avatar, or wait for one, were accepted. -/
def Vouched (s : Server) : Prop :=
  ∀ i c n, s.conns[i]? = some c → (c.receiver = some n ∨ n ∈ c.inFlight) → ∃ creds aid, .verdict i n creds (.ok aid) ∈ s.log

/-- What a connection has after a login: what it had, and perhaps the login, if it was accepted. -/
theorem login_vouched (s : Server) (i : Nat) (c : Conn) (creds : Creds) (hi : i < s.conns.length)
    (hlt : ∀ m ∈ c.inFlight, m < c.logins) :
    ∃ c', (AmpServer.login P s i c creds).conns[i]? = some c' ∧ ∀ n, (c'.receiver = some n ∨ n ∈ c'.inFlight) →
      (c.receiver = some n ∨ n ∈ c.inFlight) ∨ ∃ cr aid, .verdict i n cr (.ok aid) ∈ (AmpServer.login P s i c creds).log := by
  have hno : c.logins ∉ c.inFlight := fun h => Nat.lt_irrefl _ (hlt _ h)
  have her : (c.inFlight ++ [c.logins]).erase c.logins = c.inFlight := by
    rw [List.erase_append_right _ hno]; simp
  have hf : (complete (login_ c creds) c.logins false).inFlight = c.inFlight ∧
      (complete (login_ c creds) c.logins false).receiver = c.receiver := by
    simp [complete, login_, her]
  have ht : (complete (login_ c creds) c.logins true).inFlight = c.inFlight ∧
      (complete (login_ c creds) c.logins true).receiver = some c.logins := by
    simp [complete, login_, her]
  unfold AmpServer.login
  dsimp only
  split
  · refine ⟨_, by rw [getElem?_set' _ _ _ _ hi, if_pos rfl], fun n hn => .inl ?_⟩
    rwa [hf.1, hf.2] at hn
  · rename_i aid hv
    split
    · rename_i hra
      refine ⟨_, by rw [getElem?_set' _ _ _ _ hi, if_pos rfl], fun n hn => ?_⟩
      rw [ht.1, ht.2] at hn
      rcases hn with hn | hn
      · cases hn
        exact .inr ⟨creds, aid, by rw [hv]; simp⟩
      · exact .inl (.inr hn)
    · refine ⟨_, by rw [getElem?_set' _ _ _ _ hi, if_pos rfl], fun n hn => .inl ?_⟩
      rwa [hf.1, hf.2] at hn
    · rename_i hra
      refine ⟨_, by rw [getElem?_set' _ _ _ _ hi, if_pos rfl], fun n hn => ?_⟩
      simp only [login_, List.mem_append, List.mem_singleton] at hn
      rcases hn with hn | hn | rfl
      · exact .inl (.inl hn)
      · exact .inl (.inr hn)
      · exact .inr ⟨creds, aid, by rw [hv]; simp⟩

/-- The same for anything that happens. -/
theorem step_vouched (s : Server) (o : AmpServer.SOp) (i : Nat) (c : Conn) (h : s.conns[i]? = some c)
    (hlt : ∀ m ∈ c.inFlight, m < c.logins) :
    ∃ c', (AmpServer.step P s o).conns[i]? = some c' ∧ ∀ n, (c'.receiver = some n ∨ n ∈ c'.inFlight) →
      (c.receiver = some n ∨ n ∈ c.inFlight) ∨ ∃ creds aid, .verdict i n creds (.ok aid) ∈ (AmpServer.step P s o).log := by
  have hi := lt_of_some h
  by_cases hr : rename i o = none
  · exact ⟨c, by rw [(step_other P s o i hr hi).1]; exact h, fun n hn => .inl hn⟩
  have same : ∀ c', s.conns[i]? = some c' → ∃ c', s.conns[i]? = some c' ∧ ∀ n, (c'.receiver = some n ∨ n ∈ c'.inFlight) →
      (c.receiver = some n ∨ n ∈ c.inFlight) ∨ ∃ creds aid, .verdict i n creds (.ok aid) ∈ s.log :=
    fun _ _ => ⟨c, h, fun n hn => .inl hn⟩
  cases o with
  | accept => exact absurd rfl hr
  | passwordLogin j u r =>
    obtain rfl : j = i := by by_contra hj; exact hr (by simp [rename, hj])
    simp only [AmpServer.step, h]
    split
    · exact ⟨passwordLogin c u r, by rw [getElem?_set' _ _ _ _ hi, if_pos rfl], fun n hn => .inl hn⟩
    · exact same c h
  | response j m r =>
    obtain rfl : j = i := by by_contra hj; exact hr (by simp [rename, hj])
    simp only [AmpServer.step, h]
    split
    · split
      · rename_i ha
        refine ⟨_, by rw [getElem?_set' _ _ _ _ hi, if_pos rfl], fun n hn => .inl ?_⟩
        simpa [passwordChallengeResponse, ha] using hn
      · exact login_vouched P s j c _ hi hlt
    · exact same c h
  | otp j p =>
    obtain rfl : j = i := by by_contra hj; exact hr (by simp [rename, hj])
    simp only [AmpServer.step, h]
    split
    · exact login_vouched P s j c _ hi hlt
    · exact same c h
  | fire j m e =>
    obtain rfl : j = i := by by_contra hj; exact hr (by simp [rename, hj])
    simp only [AmpServer.step, h]
    split
    · rename_i hm
      refine ⟨_, by rw [getElem?_set' _ _ _ _ hi, if_pos rfl], fun n hn => .inl ?_⟩
      unfold complete at hn
      rw [if_pos hm] at hn
      dsimp only at hn
      split at hn
      · rcases hn with hn | hn
        · cases hn; exact .inr hm
        · exact .inr (List.mem_of_mem_erase hn)
      · rcases hn with hn | hn
        · exact .inl hn
        · exact .inr (List.mem_of_mem_erase hn)
    · exact same c h
  | lose j b =>
    obtain rfl : j = i := by by_contra hj; exact hr (by simp [rename, hj])
    simp only [AmpServer.step, h]
    split
    · refine ⟨_, by rw [getElem?_set' _ _ _ _ hi, if_pos rfl], fun n hn => .inl ?_⟩
      unfold connectionLost at hn
      dsimp only at hn
      split at hn
      · exact hn
      · split at hn
        · exact hn
        · rcases hn with hn | hn
          · cases hn
          · exact .inr hn
    · exact same c h

theorem conns_old (ops : List AmpServer.SOp) (o : AmpServer.SOp) (i : Nat) (c' : Conn)
    (hc' : (AmpServer.run P pads (ops ++ [o])).conns[i]? = some c') :
    c' = Conn.new ∨ ∃ c, (AmpServer.run P pads ops).conns[i]? = some c := by
  cases hc : (AmpServer.run P pads ops).conns[i]? with
  | some c => exact .inr ⟨c, rfl⟩
  | none =>
    left
    have hlen := List.getElem?_eq_none_iff.1 hc
    have hlt := lt_of_some hc'
    rw [AmpServer.run_snoc] at hc' hlt
    rw [step_length] at hlt
    split at hlt
    · rename_i ho
      subst ho
      simp only [AmpServer.step, buildProtocol] at hc'
      rw [List.getElem?_append_right hlen] at hc'
      have : i - (AmpServer.run P pads ops).conns.length = 0 := by omega
      rw [this] at hc'
      simpa using hc'.symm
    · omega

theorem vouched (ops : List AmpServer.SOp) : Vouched (AmpServer.run P pads ops) := by
  induction ops using List.reverseRecOn with
  | nil => intro i c n h; simp [AmpServer.run] at h
  | append_singleton ops o ih =>
    intro i c' n hc' hn
    rcases conns_old P pads ops o i c' hc' with rfl | ⟨c, hc⟩
    · simp [Conn.new] at hn
    · obtain ⟨hh, hrun, -⟩ := (conn_is_run P pads ops).2 i c hc
      obtain ⟨c'', h1, h2⟩ := step_vouched P _ o i c hc (by rw [hrun]; exact inFlight_lt hh)
      rw [← AmpServer.run_snoc] at h1 h2
      rw [h1] at hc'
      cases hc'
      rcases h2 n hn with h | h
      · obtain ⟨creds, aid, h⟩ := ih i c n hc h
        obtain ⟨ext, e⟩ := log_grows P pads ops o
        exact ⟨creds, aid, by rw [e]; exact List.mem_append_left _ h⟩
      · exact h

/-! ## C143 -/

/-- What comes of the command: on a connection nobody has logged in on, the answer that it is not known; on one with a login, the
sum, for the avatar of that login, whose credentials were accepted on this connection; nothing on one that is lost or never was. Nothing else
changes. -/
theorem add_exact (hw : ∀ t, pads = some t → t.WF) (ops : List Op) (i : Nat) (l r : Int) :
    let a := run P pads ops
    let a' := run P pads (ops ++ [.add i l r])
    a'.server = a.server ∧
    ((∀ c, a.server.conns[i]? = some c → c.connected = false) → a'.work = a.work) ∧
    ∀ c, a.server.conns[i]? = some c → c.connected = true →
      (c.receiver = none → a'.work = a.work ++ [.unhandled i]) ∧
      ∀ n, c.receiver = some n → ∃ aid creds, .verdict i n creds (.ok aid) ∈ a.server.log ∧
        Accepted P pads (logins ops) i aid ∧ a'.work = a.work ++ [.added i aid l r (l + r)] := by
  intro a a'
  have e : a' = step P a (.add i l r) := run_snoc P pads ops _
  refine ⟨by rw [e, add_server], fun h => ?_, fun c hc hconn => ⟨fun hr => ?_, fun n hn => ?_⟩⟩
  · rw [e]
    simp only [step]
    split
    · rfl
    · rename_i c hc
      rw [h c hc]
      rfl
  · rw [e]
    simp [step, hc, hconn, hr]
  · have hs : a.server = AmpServer.run P pads (logins ops) := server_eq P pads ops
    obtain ⟨creds, aid, hv⟩ := vouched P pads (logins ops) i c n (by rw [← hs]; exact hc) (.inl hn)
    rw [← hs] at hv
    obtain ⟨aid', ha⟩ := avatarId_some hv
    obtain ⟨creds', hv'⟩ := avatarId_mem ha
    refine ⟨aid', creds', hv', verdict_accepted P pads hw _ _ _ _ _ (by rw [← hs]; exact hv'), ?_⟩
    rw [e]
    simp [step, hc, hconn, hn, ha, add]

/-- Everything that was ever added was asked for on a connection on which credentials for that avatar had been accepted before, and
the answer was the sum. -/
theorem only_authenticated (hw : ∀ t, pads = some t → t.WF) (ops : List Op) {i : Nat} {aid : Bytes} {l r s : Int}
    (h : .added i aid l r s ∈ (run P pads ops).work) :
    s = l + r ∧ ∃ pre post, ops = pre ++ .add i l r :: post ∧ Accepted P pads (logins pre) i aid := by
  induction ops using List.reverseRecOn with
  | nil => simp [run] at h
  | append_singleton ops o ih =>
    have old : .added i aid l r s ∈ (run P pads ops).work →
        s = l + r ∧ ∃ pre post, ops ++ [o] = pre ++ .add i l r :: post ∧ Accepted P pads (logins pre) i aid := by
      intro h
      obtain ⟨h1, pre, post, h2, h3⟩ := ih h
      exact ⟨h1, pre, post ++ [o], by rw [h2]; simp, h3⟩
    cases o with
    | auth o => exact old (by rw [run_snoc] at h; exact h)
    | add j l' r' =>
      obtain ⟨-, h2, h3⟩ := add_exact P pads hw ops j l' r'
      cases hc : (run P pads ops).server.conns[j]? with
      | none => exact old (by rw [h2 (by rw [hc]; intro c hc; cases hc)] at h; exact h)
      | some c =>
        cases hconn : c.connected with
        | false => exact old (by rw [h2 (by rw [hc]; intro c' hc'; cases hc'; exact hconn)] at h; exact h)
        | true =>
          obtain ⟨h4, h5⟩ := h3 c hc hconn
          by_cases hr : c.receiver = none
          · rw [h4 hr] at h
            rcases List.mem_append.1 h with h | h
            · exact old h
            · simp at h
          · obtain ⟨n, hn⟩ := Option.ne_none_iff_exists'.1 hr
            obtain ⟨aid', -, -, ha, hwk⟩ := h5 n hn
            rw [hwk] at h
            rcases List.mem_append.1 h with h | h
            · exact old h
            · rw [List.mem_singleton] at h
              cases h
              exact ⟨rfl, ops, [], rfl, ha⟩

/-- No box receiver is ever an avatar that the realm has not made. -/
theorem no_stray (ops : List Op) (hw : ∀ t, pads = some t → t.WF) (i : Nat) : .stray i ∉ (run P pads ops).work := by
  induction ops using List.reverseRecOn with
  | nil => simp [run]
  | append_singleton ops o ih =>
    cases o with
    | auth o => rw [run_snoc]; exact ih
    | add j l r =>
      obtain ⟨-, h2, h3⟩ := add_exact P pads hw ops j l r
      cases hc : (run P pads ops).server.conns[j]? with
      | none => rw [h2 (by rw [hc]; intro c hc; cases hc)]; exact ih
      | some c =>
        cases hconn : c.connected with
        | false => rw [h2 (by rw [hc]; intro c' hc'; cases hc'; exact hconn)]; exact ih
        | true =>
          obtain ⟨h4, h5⟩ := h3 c hc hconn
          by_cases hr : c.receiver = none
          · rw [h4 hr]; simp [ih]
          · obtain ⟨n, hn⟩ := Option.ne_none_iff_exists'.1 hr
            obtain ⟨aid', -, -, ha, hwk⟩ := h5 n hn
            rw [hwk]; simp [ih]

/-- What `Accepted` means for a portal with passwords and no pads: `PasswordLogin` for the user, with a challenge, later a response
on the same connection that is the hash of that challenge, a nonce and the user's password. -/
theorem accepted_password (us : Dict Bytes Text) (hu : P.users = some us) (ops : List AmpServer.SOp) {i : Nat} {aid : Bytes}
    (h : Accepted P none ops i aid) :
    ∃ pre post rnd nonce pw q, ops = pre ++ .response i nonce (P.sha1 (rnd ++ [32] ++ nonce ++ [32] ++ q)) :: post ∧
      .passwordLogin i aid rnd ∈ pre ∧ Dict.get? us aid = some pw ∧ ensureBinary pw = .ok q := by
  obtain ⟨pre, o, post, creds, rfl, hg, hv⟩ := h
  cases hg with
  | otp p => simp [verdictOf] at hv
  | response n r c u hlast =>
    simp only [verdictOf, hu] at hv
    split at hv
    · cases hv
    · rename_i pw hpw
      split at hv
      · cases hv
      · rename_i q hq
        split at hv
        · rename_i hr
          cases hv
          refine ⟨pre, post, c, n, pw, q, by rw [hr], ?_, hpw, hq⟩
          unfold lastChallenge at hlast
          have hm := List.mem_of_getLast? hlast
          obtain ⟨op, hop, he⟩ := List.mem_filterMap.1 hm
          unfold mine at hop
          obtain ⟨so, hso, hcmd⟩ := List.mem_filterMap.1 hop
          have hsince : ∀ (ops : List AmpServer.SOp) (i : Nat), ∀ x ∈ since i ops, x ∈ ops := by
            intro ops
            induction ops with
            | nil => intro i x hx; cases i <;> cases hx
            | cons y ops ih =>
              intro i x hx
              cases y with
              | accept =>
                cases i with
                | zero => exact List.mem_cons_of_mem _ hx
                | succ i => exact List.mem_cons_of_mem _ (ih i x hx)
              | _ => cases i <;> exact List.mem_cons_of_mem _ (ih _ x hx)
          have hin := hsince _ _ _ hso
          cases op with
          | passwordLogin u' r' =>
            cases he
            cases so with
            | passwordLogin j a b =>
              simp only [command] at hcmd
              split at hcmd
              · rename_i hj; cases hcmd; rw [hj] at hin; exact hin
              · cases hcmd
            | accept => cases hcmd
            | fire j a b => cases hcmd
            | response j a b => simp only [command] at hcmd; split at hcmd <;> cases hcmd
            | otp j a => simp only [command] at hcmd; split at hcmd <;> cases hcmd
            | lose j a => simp only [command] at hcmd; split at hcmd <;> cases hcmd
          | response a b => cases he
          | otp a => cases he
          | complete a b => cases he
          | lose a => cases he
        · cases hv

/-! ## One connection, one avatar -/

/-- With a realm that answers at once, nothing is ever pending, and who is logged in stays so while the connection lasts. -/
theorem step_stays (hP : Prompt P) (s : Server) (o : AmpServer.SOp) (i : Nat) (c : Conn) (h : s.conns[i]? = some c)
    (hidle : c.inFlight = []) :
    ∃ c', (AmpServer.step P s o).conns[i]? = some c' ∧ c'.inFlight = [] ∧ (c.connected = false → c'.connected = false) ∧
      ∀ n, c.receiver = some n → c'.receiver = some n ∨ c'.connected = false := by
  have hi := lt_of_some h
  by_cases hr : rename i o = none
  · exact ⟨c, by rw [(step_other P s o i hr hi).1]; exact h, hidle, id, fun n hn => .inl hn⟩
  have same : ∃ c', s.conns[i]? = some c' ∧ c'.inFlight = [] ∧ (c.connected = false → c'.connected = false) ∧
      ∀ n, c.receiver = some n → c'.receiver = some n ∨ c'.connected = false :=
    ⟨c, h, hidle, id, fun n hn => .inl hn⟩
  have log : ∀ creds, (c.connected = true ∧ c.receiver = none) →
      ∃ c', (AmpServer.login P s i c creds).conns[i]? = some c' ∧ c'.inFlight = [] ∧ (c.connected = false → c'.connected = false) ∧
      ∀ n, c.receiver = some n → c'.receiver = some n ∨ c'.connected = false := by
    intro creds ho
    have hf : ∀ b, (complete (login_ c creds) c.logins b).inFlight = [] := by
      intro b; cases b <;> simp [complete, login_, hidle]
    unfold AmpServer.login
    dsimp only
    split
    · exact ⟨_, by rw [getElem?_set' _ _ _ _ hi, if_pos rfl], hf _, by simp [ho.1], by simp [ho.2]⟩
    · rename_i aid hv
      split
      · exact ⟨_, by rw [getElem?_set' _ _ _ _ hi, if_pos rfl], hf _, by simp [ho.1], by simp [ho.2]⟩
      · exact ⟨_, by rw [getElem?_set' _ _ _ _ hi, if_pos rfl], hf _, by simp [ho.1], by simp [ho.2]⟩
      · rename_i hra; exact absurd hra (hP aid)
  cases o with
  | accept => exact absurd rfl hr
  | passwordLogin j u r =>
    obtain rfl : j = i := by by_contra hj; exact hr (by simp [rename, hj])
    simp only [AmpServer.step, h]
    split
    · exact ⟨passwordLogin c u r, by rw [getElem?_set' _ _ _ _ hi, if_pos rfl], hidle, id, fun n hn => .inl hn⟩
    · exact same
  | response j m r =>
    obtain rfl : j = i := by by_contra hj; exact hr (by simp [rename, hj])
    simp only [AmpServer.step, h]
    split
    · rename_i ho
      split
      · rename_i ha
        exact ⟨_, by rw [getElem?_set' _ _ _ _ hi, if_pos rfl], by simpa [passwordChallengeResponse, ha] using hidle,
          by simp [ho.1], by simp [ho.2]⟩
      · exact log _ ho
    · exact same
  | otp j p =>
    obtain rfl : j = i := by by_contra hj; exact hr (by simp [rename, hj])
    simp only [AmpServer.step, h]
    split
    · rename_i ho; exact log _ ho
    · exact same
  | fire j m e =>
    obtain rfl : j = i := by by_contra hj; exact hr (by simp [rename, hj])
    simp only [AmpServer.step, h, hidle]
    exact same
  | lose j b =>
    obtain rfl : j = i := by by_contra hj; exact hr (by simp [rename, hj])
    simp only [AmpServer.step, h]
    split
    · have : (connectionLost c b).inFlight = [] ∧ (connectionLost c b).connected = false := by
        unfold connectionLost
        dsimp only
        split
        · exact ⟨hidle, rfl⟩
        · split <;> exact ⟨hidle, rfl⟩
      exact ⟨_, by rw [getElem?_set' _ _ _ _ hi, if_pos rfl], this.1, fun _ => this.2, fun _ _ => .inr this.2⟩
    · exact same

theorem all_idle (hP : Prompt P) (ops : List AmpServer.SOp) :
    ∀ (i : Nat) (c : Conn), (AmpServer.run P pads ops).conns[i]? = some c → c.inFlight = [] := by
  induction ops using List.reverseRecOn with
  | nil => intro i c h; simp [AmpServer.run] at h
  | append_singleton ops o ih =>
    intro i c' hc'
    rcases conns_old P pads ops o i c' hc' with rfl | ⟨c, hc⟩
    · rfl
    · obtain ⟨c'', h1, h2, -⟩ := step_stays P hP _ o i c hc (ih i c hc)
      rw [← AmpServer.run_snoc, hc'] at h1
      cases h1
      exact h2

/-- What was added on a connection was added for its avatar, unless the connection is lost. -/
def Same (a : App) : Prop :=
  (∀ i aid l r s, .added i aid l r s ∈ a.work → ∃ c n, a.server.conns[i]? = some c ∧ avatarId a.server.log i n = some aid ∧
    (c.receiver = some n ∨ c.connected = false)) ∧
  ∀ i aid l r s aid' l' r' s', .added i aid l r s ∈ a.work → .added i aid' l' r' s' ∈ a.work → aid = aid'

theorem same_run (hP : Prompt P) (ops : List Op) : Same (run P pads ops) := by
  induction ops using List.reverseRecOn with
  | nil => constructor <;> intros <;> simp_all [run]
  | append_singleton ops o ih =>
    rw [run_snoc]
    obtain ⟨h1, h2⟩ := ih
    cases o with
    | auth o =>
      refine ⟨fun i aid l r s hm => ?_, h2⟩
      obtain ⟨c, n, hc, ha, hr⟩ := h1 i aid l r s hm
      have hs := server_eq P pads ops
      obtain ⟨c', k1, k2, k3, k4⟩ := step_stays P hP _ o i c hc (all_idle P pads hP (logins ops) i c (by rw [← hs]; exact hc))
      refine ⟨c', n, k1, ?_, ?_⟩
      · obtain ⟨ext, e⟩ := log_grows P pads (logins ops) o
        rw [AmpServer.run_snoc, ← hs] at e
        simp only [step]
        rw [e]
        exact avatarId_append ha ext
      · rcases hr with hr | hr
        · exact k4 n hr
        · exact .inr (k3 hr)
    | add j l' r' =>
      simp only [step]
      split
      · exact ⟨h1, h2⟩
      · rename_i c hc
        split
        · rename_i hconn
          split
          · refine ⟨fun i aid l r s hm => ?_, fun i aid l r s aid' l' r' s' hm hm' => ?_⟩
            · simp at hm
              exact h1 i aid l r s hm
            · simp at hm hm'
              exact h2 i aid l r s aid' l' r' s' hm hm'
          · rename_i n hn
            split
            · rename_i aid0 ha0
              have key : ∀ i aid l r s, .added i aid l r s ∈ (run P pads ops).work ++ [.added j aid0 l' r' (add l' r')] →
                  .added i aid l r s ∈ (run P pads ops).work ∨ (i = j ∧ aid = aid0) := by
                intro i aid l r s hm
                rcases List.mem_append.1 hm with hm | hm
                · exact .inl hm
                · rw [List.mem_singleton] at hm
                  cases hm
                  exact .inr ⟨rfl, rfl⟩
              have fits : ∀ aid l r s, .added j aid l r s ∈ (run P pads ops).work → aid = aid0 := by
                intro aid l r s hm
                obtain ⟨c1, n1, e1, e2, e3⟩ := h1 j aid l r s hm
                rw [hc] at e1
                cases e1
                rcases e3 with e3 | e3
                · rw [hn] at e3
                  cases e3
                  rw [ha0] at e2
                  cases e2
                  rfl
                · rw [hconn] at e3; cases e3
              refine ⟨fun i aid l r s hm => ?_, fun i aid l r s aid' l'' r'' s' hm hm' => ?_⟩
              · rcases key i aid l r s hm with hm | ⟨rfl, rfl⟩
                · exact h1 i aid l r s hm
                · exact ⟨c, n, hc, ha0, .inl hn⟩
              · rcases key i aid l r s hm with k | ⟨rfl, rfl⟩
                · rcases key i aid' l'' r'' s' hm' with k' | ⟨rfl, rfl⟩
                  · exact h2 i aid l r s aid' l'' r'' s' k k'
                  · exact fits aid l r s k
                · rcases key i aid' l'' r'' s' hm' with k' | ⟨-, rfl⟩
                  · exact (fits aid' l'' r'' s' k').symm
                  · rfl
            · refine ⟨fun i aid l r s hm => ?_, fun i aid l r s aid' l' r' s' hm hm' => ?_⟩
              · simp at hm
                exact h1 i aid l r s hm
              · simp at hm hm'
                exact h2 i aid l r s aid' l' r' s' hm hm'
        · exact ⟨h1, h2⟩

/-- All that is added on a connection, is added for the same avatar, if the realm answers at once (as the documented one does). -/
theorem one_identity (hP : Prompt P) (ops : List Op) {i : Nat} {aid aid' : Bytes} {l r s l' r' s' : Int}
    (h : .added i aid l r s ∈ (run P pads ops).work) (h' : .added i aid' l' r' s' ∈ (run P pads ops).work) : aid = aid' :=
  (same_run P pads hP ops).2 _ _ _ _ _ _ _ _ _ h h'

/-! ## The documented clients -/

/-- It has nothing to do with connection `i`. -/
def Elsewhere (i : Nat) : Op → Prop
  | .auth .accept => True
  | .auth (.passwordLogin j _ _) | .auth (.response j _ _) | .auth (.otp j _) | .auth (.fire j _ _) | .auth (.lose j _) => j ≠ i
  | .add j _ _ => j ≠ i

theorem elsewhere_conn {i : Nat} {c : Conn} (more : List Op) (h : ∀ o ∈ more, Elsewhere i o) :
    ∀ ops, (run P pads ops).server.conns[i]? = some c → (run P pads (ops ++ more)).server.conns[i]? = some c := by
  induction more with
  | nil => intro ops hc; rw [List.append_nil]; exact hc
  | cons o more ih =>
    intro ops hc
    have : (run P pads (ops ++ [o])).server.conns[i]? = some c := by
      rw [run_snoc]
      cases o with
      | add j l r => rw [add_server]; exact hc
      | auth o =>
        have hr : rename i o = none := by
          have := h _ (List.mem_cons_self ..)
          cases o <;> simp_all [Elsewhere, rename]
        simp only [step]
        rw [(step_other P _ o i hr (lt_of_some hc)).1]
        exact hc
    have := ih (fun o ho => h o (List.mem_cons_of_mem _ ho)) _ this
    rwa [List.append_assoc] at this

theorem log_grows' (more : List Op) : ∀ ops, ∃ ext, (run P pads (ops ++ more)).server.log = (run P pads ops).server.log ++ ext := by
  induction more with
  | nil => intro ops; exact ⟨[], by simp⟩
  | cons o more ih =>
    intro ops
    obtain ⟨e1, h1⟩ := ih (ops ++ [o])
    have : ∃ e2, (run P pads (ops ++ [o])).server.log = (run P pads ops).server.log ++ e2 := by
      rw [run_snoc]
      cases o with
      | add j l r => exact ⟨[], by rw [add_server]; simp⟩
      | auth o =>
        obtain ⟨e, he⟩ := log_grows P pads (logins ops) o
        rw [AmpServer.run_snoc, ← server_eq] at he
        exact ⟨e, he⟩
    obtain ⟨e2, h2⟩ := this
    rw [List.append_assoc] at h1
    exact ⟨e2 ++ e1, by rw [show o :: more = [o] ++ more from rfl, h1, h2, List.append_assoc]⟩

theorem logins_mono (h : List AmpAuth.Op) : ∀ c : Conn, c.logins ≤ (h.foldl AmpAuth.step c).logins := by
  induction h with
  | nil => intro c; exact Nat.le_refl _
  | cons o h ih =>
    intro c
    refine Nat.le_trans ?_ (ih _)
    cases o with
    | passwordLogin u r => simp only [AmpAuth.step]; split <;> exact Nat.le_refl _
    | response n r =>
      simp only [AmpAuth.step, passwordChallengeResponse]
      split
      · split
        · exact Nat.le_refl _
        · exact Nat.le_succ _
      · exact Nat.le_refl _
    | otp p =>
      simp only [AmpAuth.step, otpLogin]
      split
      · exact Nat.le_succ _
      · exact Nat.le_refl _
    | complete n b =>
      simp only [AmpAuth.step, complete]
      split
      · split <;> exact Nat.le_refl _
      · exact Nat.le_refl _
    | lose b =>
      simp only [AmpAuth.step, connectionLost]
      split
      · split
        · exact Nat.le_refl _
        · split <;> exact Nat.le_refl _
      · exact Nat.le_refl _

theorem verdict_lt (hw : ∀ t, pads = some t → t.WF) (ops : List AmpServer.SOp) :
    ∀ (i n : Nat) (creds : Creds) (r : Except PyErr Bytes), .verdict i n creds r ∈ (AmpServer.run P pads ops).log →
      ∃ c, (AmpServer.run P pads ops).conns[i]? = some c ∧ n < c.logins := by
  induction ops using List.reverseRecOn with
  | nil => intro i n creds r h; simp [AmpServer.run] at h
  | append_singleton ops o ih =>
    intro i n creds r h
    obtain ⟨ext, e, hext⟩ := only_logins P pads ops o
    rw [e] at h
    rcases List.mem_append.1 h with h | h
    · obtain ⟨c, hc, hn⟩ := ih _ _ _ _ h
      obtain ⟨h', h1, -⟩ := step_conn P _ o i c hc
      rw [AmpServer.run_snoc]
      exact ⟨_, h1, Nat.lt_of_lt_of_le hn (logins_mono h' c)⟩
    · obtain ⟨c, hc, ho, hn, hg⟩ := hext _ _ _ _ h
      obtain ⟨-, ⟨c', hc', -, -, -, -, hl, -⟩, -⟩ := login_exact P pads hw ops i c hc ho o creds hg
      exact ⟨c', hc', by omega⟩

/-- A login that is accepted, with an avatar at once. -/
theorem logs_in (hw : ∀ t, pads = some t → t.WF) (ops : List Op) {i : Nat} {c : Conn} (hc : (run P pads ops).server.conns[i]? = some c)
    (ho : c.Open) {o : AmpServer.SOp} {creds : Creds} (hg : Gives i (logins ops) o creds) {aid : Bytes}
    (hv : verdictOf P pads (run P pads ops).server.log creds = .ok aid) (hra : P.realm aid = .avatar) :
    (run P pads (ops ++ [.auth o])).server.log = (run P pads ops).server.log ++ [.verdict i c.logins creds (.ok aid), .reply i .done] ∧
    ∃ c', (run P pads (ops ++ [.auth o])).server.conns[i]? = some c' ∧ c'.connected = true ∧ c'.receiver = some c.logins ∧
      avatarId (run P pads (ops ++ [.auth o])).server.log i c.logins = some aid := by
  have e1 : (run P pads (ops ++ [.auth o])).server = AmpServer.run P pads (logins ops ++ [o]) := by
    rw [server_eq, logins_append]; rfl
  rw [server_eq] at hc hv
  obtain ⟨h1, ⟨c', hc', h2, -, h3, -⟩, -⟩ := login_exact P pads hw (logins ops) i c hc ho o creds hg
  rw [hv] at h1 h2
  have ha : answer P (.ok aid) = some .done := by simp [answer, hra]
  rw [ha] at h1
  have hlog : (run P pads (ops ++ [.auth o])).server.log =
      (run P pads ops).server.log ++ [.verdict i c.logins creds (.ok aid), .reply i .done] := by
    rw [e1, h1, server_eq]; rfl
  refine ⟨hlog, c', by rw [e1]; exact hc', h3, (h2 ⟨aid, rfl, hra⟩).1, ?_⟩
  rw [hlog]
  have hno : avatarId (run P pads ops).server.log i c.logins = none := by
    cases e : avatarId (run P pads ops).server.log i c.logins with
    | none => rfl
    | some a =>
      obtain ⟨cr, hm⟩ := avatarId_mem e
      rw [server_eq] at hm
      obtain ⟨c1, hc1, hlt⟩ := verdict_lt P pads hw _ _ _ _ _ hm
      rw [hc] at hc1
      cases hc1
      omega
  unfold avatarId at hno ⊢
  rw [List.findSome?_append, hno]
  simp

/-- Once logged in, a client's addition is done for its avatar, whatever others do meanwhile. -/
theorem adds_then {ops : List Op} {i n : Nat} {c : Conn} {aid : Bytes} (hc : (run P pads ops).server.conns[i]? = some c)
    (hconn : c.connected = true) (hr : c.receiver = some n) (ha : avatarId (run P pads ops).server.log i n = some aid)
    {ys : List Op} (hy : ∀ o ∈ ys, Elsewhere i o) (l r : Int) :
    (run P pads (ops ++ ys ++ [.add i l r])).work = (run P pads (ops ++ ys)).work ++ [.added i aid l r (l + r)] := by
  rw [run_snoc]
  obtain ⟨ext, e⟩ := log_grows' P pads ys ops
  have h1 := elsewhere_conn P pads ys hy ops hc
  have h2 := avatarId_append ha ext
  rw [← e] at h2
  simp [step, h1, hconn, hr, h2, add]

/-- The client of `auth_client.py:19-33`: it logs in with its password, and adds. It is told the challenge, that it is logged in,
and the sum, whatever happens on other connections meanwhile. -/
theorem client_adds (hw : ∀ t, pads = some t → t.WF) (ops xs ys : List Op) {i : Nat} {c : Conn}
    (hc : (run P pads ops).server.conns[i]? = some c) (ho : c.Open) {us : Dict Bytes Text} (hu : P.users = some us) {u q : Bytes}
    {pw : Text} (hpw : Dict.get? us u = some pw) (hq : ensureBinary pw = .ok q) (hra : P.realm u = .avatar) (rnd nonce : Bytes)
    (hx : ∀ o ∈ xs, Elsewhere i o) (hy : ∀ o ∈ ys, Elsewhere i o) (l r : Int) :
    let a1 := run P pads (ops ++ [.auth (.passwordLogin i u rnd)])
    let ops2 := ops ++ [.auth (.passwordLogin i u rnd)] ++ xs
    let a3 := run P pads (ops2 ++ [.auth (.response i nonce (P.sha1 (rnd ++ [32] ++ nonce ++ [32] ++ q)))])
    let ops4 := ops2 ++ [.auth (.response i nonce (P.sha1 (rnd ++ [32] ++ nonce ++ [32] ++ q)))] ++ ys
    a1.server.log = (run P pads ops).server.log ++ [.reply i (.challenge rnd)] ∧
    a3.server.log.getLast? = some (.reply i .done) ∧
    (run P pads (ops4 ++ [.add i l r])).work = (run P pads ops4).work ++ [.added i u l r (l + r)] := by
  intro a1 ops2 a3 ops4
  have s1 : a1.server = AmpServer.step P (run P pads ops).server (.passwordLogin i u rnd) := by
    show (run P pads (ops ++ _)).server = _
    rw [run_snoc]; rfl
  have s2 : a1.server = { (run P pads ops).server with conns := (run P pads ops).server.conns.set i (passwordLogin c u rnd),
                                                        log := (run P pads ops).server.log ++ [.reply i (.challenge rnd)] } := by
    rw [s1]
    simp only [AmpServer.step, hc]
    rw [if_pos (show c.connected = true ∧ c.receiver = none from ho)]
  have hc1 : a1.server.conns[i]? = some (passwordLogin c u rnd) := by
    rw [s2]; simp only; rw [getElem?_set' _ _ _ _ (lt_of_some hc), if_pos rfl]
  have hc2 := elsewhere_conn P pads xs hx _ hc1
  have ho2 : (passwordLogin c u rnd).Open := ho
  have hg : Gives i (logins ops2) (.response i nonce (P.sha1 (rnd ++ [32] ++ nonce ++ [32] ++ q)))
      (.password u rnd nonce (P.sha1 (rnd ++ [32] ++ nonce ++ [32] ++ q))) := by
    rw [← givesAt_iff P pads (logins ops2) i (passwordLogin c u rnd) (by rw [← server_eq]; exact hc2) ho2]
    exact .response _ _ _ _ rfl
  have hv : ∀ log, verdictOf P pads log (.password u rnd nonce (P.sha1 (rnd ++ [32] ++ nonce ++ [32] ++ q))) = .ok u := by
    intro log; simp [verdictOf, hu, hpw, hq]
  obtain ⟨g1, c', g2, g3, g4, g5⟩ := logs_in P pads hw ops2 hc2 ho2 hg (hv _) hra
  exact ⟨by rw [s2], by rw [show a3.server.log = _ from g1]; simp, adds_then P pads g2 g3 g4 g5 hy l r⟩

/-- The client of `amp_auth_client.py:19-36`: it sends its pad and, without waiting, the numbers. If the pad is in the table, was not
tried before on any connection, and the realm answers at once, this works. -/
theorem pad_client_adds (t : Dict Bytes Bytes) (ht : t.WF) (ops ys : List Op) {i : Nat} {c : Conn}
    (hc : (run P (some t) ops).server.conns[i]? = some c) (ho : c.Open) {p aid : Bytes} (hp : Dict.get? t p = some aid)
    (hnew : ∀ j, .auth (.otp j p) ∉ ops) (hra : P.realm aid = .avatar) (hy : ∀ o ∈ ys, Elsewhere i o) (l r : Int) :
    (run P (some t) (ops ++ [.auth (.otp i p)])).server.log.getLast? = some (.reply i .done) ∧
    (run P (some t) (ops ++ [.auth (.otp i p)] ++ ys ++ [.add i l r])).work =
      (run P (some t) (ops ++ [.auth (.otp i p)] ++ ys)).work ++ [.added i aid l r (l + r)] := by
  have hw : ∀ t', some t = some t' → t'.WF := fun t' e => by cases e; exact ht
  have hna : ¬ Attempted p (run P (some t) ops).server.log := by
    rintro ⟨j, n, v, hm⟩
    rw [server_eq] at hm
    have := verdict_from P (some t) (logins ops) j n p v hm
    have hl : ∀ (ops : List Op) (o : AmpServer.SOp), o ∈ logins ops → .auth o ∈ ops := by
      intro ops
      induction ops with
      | nil => intro o h; cases h
      | cons x ops ih =>
        intro o h
        cases x with
        | auth y =>
          rcases List.mem_cons.1 h with rfl | h
          · exact List.mem_cons_self ..
          · exact List.mem_cons_of_mem _ (ih o h)
        | add j l r => exact List.mem_cons_of_mem _ (ih o h)
    exact hnew j (hl _ _ this)
  have hv : verdictOf P (some t) (run P (some t) ops).server.log (.pad p) = .ok aid := by
    simp [verdictOf, hna, hp]
  obtain ⟨g1, c', g2, g3, g4, g5⟩ := logs_in P (some t) hw ops hc ho (.otp p) hv hra
  exact ⟨by rw [g1]; simp, adds_then P (some t) g2 g3 g4 g5 hy l r⟩

/-! ## Examples -/

/-- With a realm that takes its time, the numbers that were sent without waiting are refused. -/
example : (run { listingPad id with realm := fun _ => .later } (some padTable)
    [.auth .accept, .auth (.otp 0 [112, 97, 100]), .add 0 17 33]).work = [.unhandled 0] := by decide

example : (run (listingPad id) (some padTable) [.auth .accept, .auth (.otp 0 [112, 97, 100]), .add 0 17 33]).work =
    [.added 0 [48] 17 33 50] := by decide

/-- Two connections, on one of which the password is wrong. -/
example : (run (listing id) none
    [.auth .accept, .auth .accept, .add 0 1 2, .auth (.passwordLogin 0 [116, 101, 115, 116, 117, 115, 101, 114] [1]),
     .auth (.passwordLogin 1 [116, 101, 115, 116, 117, 115, 101, 114] [2]),
     .auth (.response 1 [3] [1, 32, 3, 32, 101, 120, 97, 109, 112, 108, 101, 112, 97, 115, 115]), .add 1 4 5,
     .auth (.response 0 [3] [1, 32, 3, 32, 101, 120, 97, 109, 112, 108, 101, 112, 97, 115, 115]), .add 0 17 33, .add 1 4 5]).work =
    [.unhandled 0, .unhandled 1, .added 0 [116, 101, 115, 116, 117, 115, 101, 114] 17 33 50, .unhandled 1] := by decide

example (sha1 : Bytes → Bytes) : Prompt (listing sha1) ∧ Prompt (listingPad sha1) := ⟨fun _ h => (by cases h), fun _ h => (by cases h)⟩

/-- `one_identity` needs a realm that answers at once: of two logins that overlap, each has its turn. -/
example : (run { listingPad id with realm := fun _ => .later } (some [([1], [7]), ([2], [8])])
    [.auth .accept, .auth (.otp 0 [1]), .auth (.otp 0 [2]), .auth (.fire 0 1 none), .add 0 1 1, .auth (.fire 0 0 none), .add 0 1 1]).work =
    [.added 0 [8] 1 1 2, .added 0 [7] 1 1 2] := by decide

end Verif.AmpAdder
