import Verif.Lemmas.JuiceRpcRun
/-!
# C26 and C27 against an arbitrary remote peer

One peer, whose remote side may write any boxes at any time: nothing is assumed of the remote side, nor of the boxes that the
application sends.  `receive b` is the arrival of the box `b`.
-/
namespace Verif.JuiceRpc
open Verif.Py Verif.Juice

/-- What can happen to one peer. -/
inductive Any where
  | send (command : Str) (box : Box) (requiresAnswer : Bool)
  | receive (box : Box)
  | respond (m : Nat) (r : Reply)
  | lose (reason : Nat)
  | lock

/-- The peer is `true`. -/
def Any.step (w : World) : Any → World
  | .send c b ra => JuiceRpc.step w (.send true c b ra)
  | .receive b => JuiceRpc.step (w.setChan false [b]) (.deliver true)
  | .respond m r => JuiceRpc.step w (.respond true m r)
  | .lose r => JuiceRpc.step w (.lose true r)
  | .lock => JuiceRpc.step w (.lock true)

def runAny (ops : List Any) : Side := (ops.foldl Any.step World.new).side true

/-- Specification: `r` is what the box `b` says about the request `n`. -/
def Says (b : Box) (n : Nat) (r : Result) : Prop :=
  (Dict.get? b ANSWER = some (hexStr n) ∧ r = .answer b) ∨
  (Dict.get? b ANSWER = none ∧ Dict.get? b ERROR = some (hexStr n) ∧
    ∃ c t, Dict.get? b ERROR_CODE = some c ∧ Dict.get? b ERROR_DESCRIPTION = some t ∧ r = .error c t)

/-- An error about the request `n` that does not say which. -/
def Mute (b : Box) (n : Nat) : Prop :=
  Dict.get? b ANSWER = none ∧ Dict.get? b ERROR = some (hexStr n) ∧
    (Dict.get? b ERROR_CODE = none ∨ Dict.get? b ERROR_DESCRIPTION = none)

structure AInv (p : Side) (bs : List Box) (why : List Nat) : Prop where
  askedNodup : (p.asked.map Prod.fst).Nodup
  askedLe : ∀ n b, (n, b) ∈ p.asked → n ≤ p.counter ∧ Dict.get? b ASK = some (hexStr n)
  firedNodup : (p.fired.map Prod.fst).Nodup
  firedAsked : ∀ n ∈ p.fired.map Prod.fst, n ∈ p.asked.map Prod.fst
  firedFrom : ∀ n r, (n, r) ∈ p.fired → (∃ x ∈ why, r = .lost x) ∨ ∃ b ∈ bs, Says b n r
  out : ∀ d, p.outstanding = some d → Dict.WF d ∧ ∀ t n, (t, n) ∈ d → t = hexStr n ∧ n ∈ p.asked.map Prod.fst ∧
    n ∉ p.fired.map Prod.fst
  rest : ∀ n ∈ p.asked.map Prod.fst, n ∈ p.fired.map Prod.fst ∨ (∃ d, p.outstanding = some d ∧ (hexStr n, n) ∈ d) ∨
    ∃ b ∈ bs, Mute b n

theorem AInv.new : AInv Side.new [] [] := by
  refine ⟨by simp [Side.new], by simp [Side.new], by simp [Side.new], by simp [Side.new], by simp [Side.new], ?_, by simp [Side.new]⟩
  intro d hd
  cases hd
  exact ⟨Dict.WF.nil, fun t n h => by cases h⟩

/-- The parts that matter. -/
theorem AInv.congr {p p' : Side} {bs : List Box} {why : List Nat} (h : AInv p bs why) (h1 : p'.counter = p.counter)
    (h2 : p'.outstanding = p.outstanding) (h3 : p'.asked = p.asked) (h4 : p'.fired = p.fired) : AInv p' bs why := by
  obtain ⟨a, b, c, d, e, f, g⟩ := h
  exact ⟨h3 ▸ a, h3 ▸ h1 ▸ b, h4 ▸ c, h4 ▸ h3 ▸ d, h4 ▸ e, h2 ▸ h3 ▸ h4 ▸ f, h2 ▸ h3 ▸ h4 ▸ g⟩

theorem AInv.more {p : Side} {bs bs' : List Box} {why why' : List Nat} (h : AInv p bs why) (hb : ∀ b ∈ bs, b ∈ bs')
    (hw : ∀ x ∈ why, x ∈ why') : AInv p bs' why' := by
  refine ⟨h.askedNodup, h.askedLe, h.firedNodup, h.firedAsked, ?_, h.out, ?_⟩
  · intro n r hr
    rcases h.firedFrom n r hr with ⟨x, h1, h2⟩ | ⟨b, h1, h2⟩
    · exact .inl ⟨x, hw x h1, h2⟩
    · exact .inr ⟨b, hb b h1, h2⟩
  · intro n hn
    rcases h.rest n hn with h1 | h1 | ⟨b, h1, h2⟩
    · exact .inl h1
    · exact .inr (.inl h1)
    · exact .inr (.inr ⟨b, hb b h1, h2⟩)

theorem AInv.bump {p : Side} {bs : List Box} {why : List Nat} (h : AInv p bs why) :
    AInv { p with counter := p.counter + 1 } bs why := by
  refine ⟨h.askedNodup, fun n b hb => ?_, h.firedNodup, h.firedAsked, h.firedFrom, h.out, h.rest⟩
  have := h.askedLe n b hb
  exact ⟨Nat.le_succ_of_le this.1, this.2⟩

theorem AInv.ask {p : Side} {bs : List Box} {why : List Nat} (h : AInv p bs why) (d : Dict Str Nat) (hd : p.outstanding = some d)
    (b : Box) : AInv { p with counter := p.counter + 1,
                              outstanding := some (Dict.set d (hexStr (p.counter + 1)) (p.counter + 1)),
                              asked := p.asked ++ [(p.counter + 1, Dict.set b ASK (hexStr (p.counter + 1)))] } bs why := by
  have hfresh : p.counter + 1 ∉ p.asked.map Prod.fst := by
    intro hm
    obtain ⟨⟨n, q⟩, h1, h2⟩ := List.mem_map.1 hm
    simp only at h2
    have := (h.askedLe n q h1).1
    omega
  obtain ⟨hwf, hout⟩ := h.out d hd
  have hk : hexStr (p.counter + 1) ∉ Dict.keys d := by
    intro hm
    obtain ⟨⟨t, n⟩, h1, h2⟩ := List.mem_map.1 hm
    simp only at h2
    obtain ⟨h3, h4, _⟩ := hout t n h1
    rw [h3] at h2
    have := hexStr_inj h2
    subst this
    exact hfresh h4
  refine ⟨?_, ?_, h.firedNodup, ?_, h.firedFrom, ?_, ?_⟩
  · simp only [List.map_append, List.map_cons, List.map_nil]
    rw [List.nodup_append]
    refine ⟨h.askedNodup, by simp, ?_⟩
    intro x hx y hy e
    rw [List.mem_singleton] at hy
    subst hy; subst e
    exact hfresh hx
  · intro n q hm
    simp only at hm ⊢
    rcases List.mem_append.1 hm with h1 | h1
    · have := h.askedLe n q h1
      exact ⟨Nat.le_succ_of_le this.1, this.2⟩
    · rw [List.mem_singleton] at h1
      cases h1
      exact ⟨Nat.le_refl _, Dict.get?_set_same _ _ _⟩
  · intro n hn
    simp only [List.map_append, List.mem_append]
    exact .inl (h.firedAsked n hn)
  · intro d' hd'
    cases hd'
    refine ⟨hwf.set _ _, fun t n hm => ?_⟩
    rw [Dict.set_of_not_mem _ hk] at hm
    simp only [List.map_append, List.mem_append]
    rcases List.mem_append.1 hm with h1 | h1
    · obtain ⟨h2, h3, h4⟩ := hout t n h1
      exact ⟨h2, .inl h3, h4⟩
    · rw [List.mem_singleton] at h1
      cases h1
      refine ⟨rfl, .inr (by simp), fun hm => hfresh (h.firedAsked _ hm)⟩
  · intro n hn
    simp only [List.map_append, List.mem_append, List.map_cons, List.map_nil, List.mem_singleton] at hn
    rw [Dict.set_of_not_mem _ hk]
    rcases hn with hn | hn
    · rcases h.rest n hn with h1 | ⟨d', h1, h2⟩ | h1
      · exact .inl h1
      · rw [hd] at h1; cases h1
        exact .inr (.inl ⟨_, rfl, List.mem_append_left _ h2⟩)
      · exact .inr (.inr h1)
    · subst hn
      exact .inr (.inl ⟨_, rfl, by simp⟩)

/-- Popping a request, for a box that says something about it or says nothing. -/
theorem AInv.pop {p : Side} {bs : List Box} {why : List Nat} (h : AInv p bs why) (d : Dict Str Nat) (hd : p.outstanding = some d)
    (b : Box) (tag : Str) (r : Except PyErr Result)
    (hb : Dict.get? b ANSWER = some tag ∨ (Dict.get? b ANSWER = none ∧ Dict.get? b ERROR = some tag))
    (hok : ∀ x, r = .ok x → ∀ n, tag = hexStr n → Says b n x) (herr : ∀ e, r = .error e → ∀ n, tag = hexStr n → Mute b n) :
    AInv (answerReceived p d tag r) (bs ++ [b]) why := by
  have h := h.more (bs' := bs ++ [b]) (why' := why) (fun x hx => List.mem_append_left _ hx) (fun x hx => hx)
  have hbm : b ∈ bs ++ [b] := by simp
  unfold answerReceived
  cases hg : Dict.get? d tag with
  | none => exact h.congr rfl rfl rfl rfl
  | some n =>
    obtain ⟨hwf, hout⟩ := h.out d hd
    obtain ⟨ht, hna, hnf⟩ := hout tag n (Dict.mem_of_get? hg)
    have herase : ∀ t m, (t, m) ∈ Dict.erase d tag → (t, m) ∈ d ∧ m ≠ n := by
      intro t m hm
      have h1 : (t, m) ∈ d := (erase_sublist d tag).mem hm
      refine ⟨h1, ?_⟩
      rintro rfl
      have h2 := (hout t m h1).1
      have h3 : t ∈ Dict.keys (Dict.erase d tag) := List.mem_map.2 ⟨_, hm, rfl⟩
      rw [Dict.mem_keys_erase hwf] at h3
      exact h3.2 (h2.trans ht.symm)
    have hkeep : ∀ m, m ≠ n → (hexStr m, m) ∈ d → (hexStr m, m) ∈ Dict.erase d tag := by
      intro m hm h1
      have h2 : Dict.get? (Dict.erase d tag) (hexStr m) = some m := by
        rw [Dict.get?_erase_other, Dict.get?_of_mem hwf h1]
        rintro rfl
        exact hm (hexStr_inj ht)
      exact Dict.mem_of_get? h2
    cases r with
    | error e =>
      simp only
      refine ⟨h.askedNodup, h.askedLe, h.firedNodup, h.firedAsked, h.firedFrom, ?_, ?_⟩
      · intro d' hd'
        cases hd'
        refine ⟨hwf.erase _, fun t m hm => hout t m (herase t m hm).1⟩
      · intro m hm
        rcases h.rest m hm with h1 | ⟨d', h1, h2⟩ | h1
        · exact .inl h1
        · rw [hd] at h1; cases h1
          by_cases hmn : m = n
          · subst hmn
            exact .inr (.inr ⟨b, hbm, herr e rfl m ht⟩)
          · exact .inr (.inl ⟨_, rfl, hkeep m hmn h2⟩)
        · exact .inr (.inr h1)
    | ok x =>
      simp only
      refine ⟨h.askedNodup, h.askedLe, ?_, ?_, ?_, ?_, ?_⟩
      · simp only [List.map_append, List.map_cons, List.map_nil]
        rw [List.nodup_append]
        refine ⟨h.firedNodup, by simp, ?_⟩
        intro y hy z hz e
        rw [List.mem_singleton] at hz
        subst hz; subst e
        exact hnf hy
      · intro m hm
        simp only [List.map_append, List.mem_append, List.map_cons, List.map_nil, List.mem_singleton] at hm
        rcases hm with hm | hm
        · exact h.firedAsked m hm
        · subst hm; exact hna
      · intro m y hm
        simp only at hm
        rcases List.mem_append.1 hm with h1 | h1
        · exact h.firedFrom m y h1
        · rw [List.mem_singleton] at h1
          cases h1
          exact .inr ⟨b, hbm, hok x rfl n ht⟩
      · intro d' hd'
        cases hd'
        refine ⟨hwf.erase _, fun t m hm => ?_⟩
        obtain ⟨h1, h2⟩ := herase t m hm
        obtain ⟨h3, h4, h5⟩ := hout t m h1
        refine ⟨h3, h4, ?_⟩
        simp only [List.map_append, List.mem_append, List.map_cons, List.map_nil, List.mem_singleton, not_or]
        exact ⟨h5, h2⟩
      · intro m hm
        simp only [List.map_append, List.mem_append, List.map_cons, List.map_nil, List.mem_singleton]
        rcases h.rest m hm with h1 | ⟨d', h1, h2⟩ | h1
        · exact .inl (.inl h1)
        · rw [hd] at h1; cases h1
          by_cases hmn : m = n
          · exact .inl (.inr hmn)
          · exact .inr (.inl ⟨_, rfl, hkeep m hmn h2⟩)
        · exact .inr (.inr (by simpa using h1))

theorem AInv.received {p : Side} {bs : List Box} {why : List Nat} (h : AInv p bs why) (d : Dict Str Nat)
    (hd : p.outstanding = some d) (b : Box) : AInv (juiceBoxReceived p d b) (bs ++ [b]) why := by
  have h' := h.more (bs' := bs ++ [b]) (why' := why) (fun x hx => List.mem_append_left _ hx) (fun x hx => hx)
  unfold juiceBoxReceived
  split
  · exact h'
  · cases ha : Dict.get? b ANSWER with
    | some tag =>
      refine h.pop d hd b tag _ (.inl ha) ?_ ?_
      · intro x hx n hn
        cases hx
        exact .inl ⟨hn ▸ ha, rfl⟩
      · intro e he; cases he
    | none =>
      simp only
      cases he : Dict.get? b ERROR with
      | some tag =>
        refine h.pop d hd b tag _ (.inr ⟨ha, he⟩) ?_ ?_
        · intro x hx n hn
          split at hx
          · rename_i c t h1 h2
            cases hx
            exact .inr ⟨ha, hn ▸ he, c, t, h1, h2, rfl⟩
          · cases hx
        · intro e hx n hn
          split at hx
          · cases hx
          · rename_i h1
            refine ⟨ha, hn ▸ he, ?_⟩
            cases hc : Dict.get? b ERROR_CODE with
            | none => exact .inl rfl
            | some c =>
              cases ht : Dict.get? b ERROR_DESCRIPTION with
              | none => exact .inr rfl
              | some t => exact absurd ht (h1 c t hc)
      | none =>
        simp only
        split <;> exact h'.congr rfl rfl rfl rfl

/-- The boxes that arrived, and the reasons why the connection was lost. -/
def boxes (ops : List Any) : List Box := ops.filterMap fun | .receive b => some b | _ => none
def reasons (ops : List Any) : List Nat := ops.filterMap fun | .lose x => some x | _ => none

theorem AInv.run (ops : List Any) : AInv (runAny ops) (boxes ops) (reasons ops) := by
  induction ops using List.reverseRecOn with
  | nil => exact AInv.new
  | append_singleton ops op ih =>
    unfold runAny at *
    rw [List.foldl_append, List.foldl_cons, List.foldl_nil]
    generalize ops.foldl Any.step World.new = w at ih ⊢
    unfold boxes reasons at *
    rw [List.filterMap_append, List.filterMap_append]
    cases op with
    | send c b ra =>
      simp only [List.filterMap_cons, List.filterMap_nil, List.append_nil, Any.step, JuiceRpc.step, sendBoxCommand]
      cases hd : (w.side true).outstanding with
      | none => simp only [setSide_side_same]; exact ih.congr rfl hd.symm rfl rfl
      | some d =>
        simp only
        split
        · unfold sendPacket
          split
          · simp only [setSide_side_same]
            exact (ih.ask d hd (Dict.set b COMMAND c)).congr rfl rfl rfl rfl
          · simp only [setChan_side, setSide_side_same]
            exact ih.ask d hd (Dict.set b COMMAND c)
        · unfold sendPacket
          split
          · simp only [setSide_side_same]
            exact ih.bump.congr rfl hd.symm rfl rfl
          · simp only [setChan_side, setSide_side_same]
            exact ih.bump.congr rfl hd.symm rfl rfl
    | receive b =>
      simp only [List.filterMap_cons, List.filterMap_nil, List.append_nil, Any.step, JuiceRpc.step, deliver, setChan_side,
        Bool.not_true, setChan_chan_same]
      cases hd : (w.side true).outstanding with
      | none => exact ih.more (fun x hx => List.mem_append_left _ hx) (fun x hx => hx)
      | some d =>
        simp only [setSide_side_same, setChan_side]
        exact ih.received d hd b
    | respond m r =>
      simp only [List.filterMap_cons, List.filterMap_nil, List.append_nil, Any.step, JuiceRpc.step, respond]
      (repeat' split) <;> first
        | exact ih
        | (simp only [setSide_side_same, setChan_side]; exact ih.congr rfl rfl rfl rfl)
    | lock =>
      simp only [List.filterMap_cons, List.filterMap_nil, List.append_nil, Any.step, JuiceRpc.step, setSide_side_same]
      exact ih.congr rfl rfl rfl rfl
    | lose x =>
      simp only [List.filterMap_cons, List.filterMap_nil, List.append_nil, Any.step, JuiceRpc.step, connectionLost]
      have ih := ih.more (bs' := ops.filterMap fun | .receive b => some b | _ => none)
        (why' := (ops.filterMap fun | .lose x => some x | _ => none) ++ [x]) (fun _ h => h) (fun _ h => List.mem_append_left _ h)
      cases hd : (w.side true).outstanding with
      | none => exact ih
      | some d =>
        simp only [setSide_side_same]
        obtain ⟨hwf, hout⟩ := ih.out d hd
        have hmap : (d.map fun e : Str × Nat => (e.2, Result.lost x)).map Prod.fst = d.map Prod.snd := by
          rw [List.map_map]; rfl
        refine ⟨ih.askedNodup, ih.askedLe, ?_, ?_, ?_, (fun d' hd' => by cases hd'), ?_⟩
        · simp only [List.map_append, hmap]
          rw [List.nodup_append]
          refine ⟨ih.firedNodup, ?_, ?_⟩
          · have : d.map Prod.fst = (d.map Prod.snd).map hexStr := by
              rw [List.map_map]
              exact List.map_congr_left fun e he => (hout e.1 e.2 he).1
            have hk : (d.map Prod.fst).Nodup := hwf
            rw [this] at hk
            exact hk.of_map _
          · intro n hn m hm e
            subst e
            obtain ⟨⟨t, k⟩, h1, h2⟩ := List.mem_map.1 hm
            simp only at h2
            subst h2
            exact (hout t k h1).2.2 hn
        · intro n hn
          simp only [List.map_append, hmap, List.mem_append] at hn
          rcases hn with hn | hn
          · exact ih.firedAsked n hn
          · obtain ⟨⟨t, k⟩, h1, h2⟩ := List.mem_map.1 hn
            simp only at h2
            subst h2
            exact (hout t k h1).2.1
        · intro n r hr
          simp only at hr
          rcases List.mem_append.1 hr with hr | hr
          · exact ih.firedFrom n r hr
          · obtain ⟨e, h1, h2⟩ := List.mem_map.1 hr
            cases h2
            exact .inl ⟨x, by simp, rfl⟩
        · intro n hn
          simp only [List.map_append, hmap, List.mem_append]
          rcases ih.rest n hn with h1 | ⟨d', h1, h2⟩ | h1
          · exact .inl (.inl h1)
          · rw [hd] at h1; cases h1
            exact .inl (.inr (List.mem_map.2 ⟨_, h2, rfl⟩))
          · exact .inr (.inr h1)

/-- C26, whatever the remote side sends: every request's Deferred fires at most once; it fires with what a box that arrived says
about that very request, or with the reason why the connection was lost. -/
theorem fired_once_any (ops : List Any) :
    ((runAny ops).fired.map Prod.fst).Nodup ∧
    ∀ n r, (n, r) ∈ (runAny ops).fired → n ∈ (runAny ops).asked.map Prod.fst ∧
      ((∃ x, Any.lose x ∈ ops ∧ r = .lost x) ∨ ∃ b, Any.receive b ∈ ops ∧ Says b n r) := by
  have h := AInv.run ops
  refine ⟨h.firedNodup, fun n r hr => ⟨h.firedAsked n (List.mem_map.2 ⟨_, hr, rfl⟩), ?_⟩⟩
  rcases h.firedFrom n r hr with ⟨x, h1, h2⟩ | ⟨b, h1, h2⟩
  · left
    obtain ⟨o, h3, h4⟩ := List.mem_filterMap.1 h1
    cases o <;> simp only [reduceCtorEq, Option.some.injEq] at h4
    subst h4
    exact ⟨_, h3, h2⟩
  · right
    obtain ⟨o, h3, h4⟩ := List.mem_filterMap.1 h1
    cases o <;> simp only [reduceCtorEq, Option.some.injEq] at h4
    subst h4
    exact ⟨_, h3, h2⟩

/-- C26, whatever the remote side sends: once the connection is lost, every request has fired, except those for which an error
arrived that does not say which. -/
theorem lost_all_fired_any_partial (ops : List Any) (down : (runAny ops).outstanding = none) (n : Nat)
    (h : n ∈ (runAny ops).asked.map Prod.fst) (hm : ∀ b, Any.receive b ∈ ops → ¬ Mute b n) :
    n ∈ (runAny ops).fired.map Prod.fst := by
  rcases (AInv.run ops).rest n h with h1 | ⟨d, h1, _⟩ | ⟨b, h1, h2⟩
  · exact h1
  · rw [down] at h1; cases h1
  · obtain ⟨o, h3, h4⟩ := List.mem_filterMap.1 h1
    cases o <;> simp only [reduceCtorEq, Option.some.injEq] at h4
    subst h4
    exact absurd h2 (hm _ h3)

/-- C27, whatever the remote side sends and whatever is in the boxes: every request carries a tag, and no two the same. -/
theorem tags_never_repeat_any (ops : List Any) :
    (∀ p ∈ (runAny ops).asked, (Dict.get? p.2 ASK).isSome) ∧ ((runAny ops).asked.map fun p => Dict.get? p.2 ASK).Nodup := by
  have hi := AInv.run ops
  refine ⟨fun p hp => by rw [(hi.askedLe p.1 p.2 hp).2]; rfl, ?_⟩
  have : ((runAny ops).asked.map fun p => Dict.get? p.2 ASK) = ((runAny ops).asked.map Prod.fst).map fun n => some (hexStr n) := by
    rw [List.map_map]
    exact List.map_congr_left fun p hp => (hi.askedLe p.1 p.2 hp).2
  rw [this]
  refine hi.askedNodup.map ?_
  intro a b e
  exact hexStr_inj (Option.some.inj e)

/-- C26 is false if the remote side may send anything: an error without code takes the request away, and its Deferred never
fires, not even when the connection is lost. -/
theorem mute_error_fails : ∃ ops : List Any, ∃ n, (runAny ops).outstanding = none ∧ n ∈ (runAny ops).asked.map Prod.fst ∧
    n ∉ (runAny ops).fired.map Prod.fst ∧ (runAny ops).raised = [.keyError] :=
  ⟨[.send [1] [] true, .receive [(ERROR, hexStr 1)], .lose 5], 1, by decide +kernel⟩

/-- Unsolicited, repeated and malformed replies, and the request that is left. -/
def hostile : List Any :=
  [.receive [(ANSWER, [49])], .send [1] [(ANSWER, [49])] true, .send [1] [] true, .receive [(ANSWER, [50])],
   .receive [(ANSWER, [50])], .receive [(ERROR, [50]), (ERROR_CODE, [])], .receive [], .lose 5]

example : (runAny hostile).fired = [(2, .answer [(ANSWER, [50])]), (1, .lost 5)] ∧
    (runAny hostile).raised = [.keyError, .keyError, .keyError, .runtimeError] ∧ (runAny hostile).outstanding = none ∧
    ∀ b, Any.receive b ∈ hostile → ¬ Mute b 1 := by
  refine ⟨by decide +kernel, by decide +kernel, by decide +kernel, ?_⟩
  intro b hb
  have key : ∀ b ∈ boxes hostile, Dict.get? b ERROR ≠ some (hexStr 1) := by decide +kernel
  exact fun h => key b (List.mem_filterMap.2 ⟨_, hb, rfl⟩) h.2.1

end Verif.JuiceRpc
