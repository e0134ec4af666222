import Verif.Spec.JuiceArgs
import Verif.Props.JuiceWire
/-!
# Lemmas about juice arguments
-/
namespace Verif.JuiceArgs
open Verif.Py Verif.Juice

theorem mapE_forall₂ {α β : Type} {f : α → Except PyErr β} {P : α → β → Prop} {l : List α}
    (h : ∀ x ∈ l, ∃ y, f x = .ok y ∧ P x y) : ∃ ys, mapE f l = .ok ys ∧ List.Forall₂ P l ys := by
  induction l with
  | nil => exact ⟨[], rfl, .nil⟩
  | cons x l ih =>
    obtain ⟨y, hy, hp⟩ := h x (by simp)
    obtain ⟨ys, hys, hps⟩ := ih (fun z hz => h z (List.mem_cons_of_mem _ hz))
    exact ⟨y :: ys, by simp [mapE, hy, hys, bind, Except.bind, pure, Except.pure], .cons hp hps⟩

theorem mapE_ok {α β : Type} {f : α → Except PyErr β} {l : List α} {ys : List β} (h : mapE f l = .ok ys) :
    List.Forall₂ (fun x y => f x = .ok y) l ys := by
  induction l generalizing ys with
  | nil => cases h; exact .nil
  | cons x l ih =>
    simp only [mapE, bind, Except.bind] at h
    split at h
    · cases h
    · rename_i y hy
      split at h
      · cases h
      · rename_i zs hzs
        cases h
        exact .cons hy (ih hzs)

theorem mapE_of_forall₂ {α β : Type} {f : α → Except PyErr β} {l : List α} {ys : List β}
    (h : List.Forall₂ (fun x y => f x = .ok y) l ys) : mapE f l = .ok ys := by
  induction h with
  | nil => rfl
  | cons hx _ ih => simp [mapE, hx, ih, bind, Except.bind, pure, Except.pure]

/-! ### Renaming -/

theorem get?_normalizeObjects (U : Uni) (objects : List (Str × Obj)) (name : Str) :
    Dict.get? (normalizeObjects U objects) name = given U objects name := by
  have key : ∀ (l : List (Str × Obj)) (d : Dict Str Obj),
      Dict.get? (l.foldl (fun d p => Dict.set d (normalizeKey U p.1) p.2) d) name =
        ((given U l name).or (Dict.get? d name)) := by
    intro l
    induction l with
    | nil => intro d; simp [given]
    | cons p l ih =>
      intro d
      rw [List.foldl_cons, ih]
      unfold given
      rw [List.filter_cons]
      by_cases hp : normalizeKey U p.1 = name
      · rw [if_pos (by simpa using hp), ← hp, Dict.get?_set_same]
        cases hl : (l.filter fun q => decide (normalizeKey U q.1 = normalizeKey U p.1)) with
        | nil => simp
        | cons q l' =>
          rw [List.getLast?_cons_cons]
          cases hg : (q :: l').getLast? with
          | none => simp at hg
          | some z => simp
      · rw [if_neg (by simpa using hp), Dict.get?_set_other _ _ _ _ hp]
  have := key objects []
  simpa [normalizeObjects] using this

/-! ### One argument -/

/-- `v` is what the box holds for an argument given as `o`. -/
def Enc (c : Codec) (o : Option Obj) (v : Option Val) : Prop :=
  (∃ x w, o = some x ∧ ¬ (c.optional = true ∧ x.isNone = true) ∧ c.enc x = .ok w ∧ v = some w) ∨
  (c.optional = true ∧ (o = none ∨ o = some .none) ∧ v = none)

/-- `o` is what is read back from `v`. -/
def Dec (c : Codec) (v : Option Val) (o : Option Obj) : Prop :=
  (∃ w x, v = some w ∧ c.dec w = .ok x ∧ o = some x) ∨ (c.optional = true ∧ v = none ∧ o = some .none)

theorem isNone_iff {x : Obj} : x.isNone = true ↔ x = .none := by
  cases x <;> simp [Obj.isNone]

theorem toBoxAll_spec (args : ArgList) (hn : (args.map Prod.fst).Nodup) (box : Dict Str Val) (objs : Dict Str Obj)
    (hwf : Dict.WF box) (hb : ∀ n ∈ args.map Prod.fst, Dict.get? box n = none)
    (h : ∀ n c, (n, c) ∈ args → ∃ v, Enc c (Dict.get? objs n) v) :
    ∃ box' objs', toBoxAll args (box, objs) = .ok (box', objs') ∧ Dict.WF box' ∧
      (∀ n c, (n, c) ∈ args → Enc c (Dict.get? objs n) (Dict.get? box' n)) ∧
      ∀ k, k ∉ args.map Prod.fst → Dict.get? box' k = Dict.get? box k := by
  induction args generalizing box objs with
  | nil => exact ⟨box, objs, rfl, hwf, by simp, by simp⟩
  | cons a args ih =>
    obtain ⟨name, c⟩ := a
    rw [List.map_cons, List.nodup_cons] at hn
    obtain ⟨v, hv⟩ := h name c (by simp)
    -- the state after this argument
    have step : ∃ box1 objs1, toBox name c (box, objs) = .ok (box1, objs1) ∧ Dict.WF box1 ∧
        Dict.get? box1 name = v ∧ (∀ k, k ≠ name → Dict.get? box1 k = Dict.get? box k) ∧
        ∀ k, k ≠ name → Dict.get? objs1 k = Dict.get? objs k := by
      rcases hv with ⟨x, w, h1, h2, h3, h4⟩ | ⟨h1, h2, h3⟩
      · refine ⟨Dict.set box name w, Dict.erase objs name, ?_, hwf.set _ _, ?_, ?_, ?_⟩
        · have : (c.optional && x.isNone) = false := by
            cases hc : c.optional <;> cases hx : x.isNone <;> simp_all
          simp [toBox, retrieve, h1, this, h3, bind, Except.bind, pure, Except.pure]
        · rw [h4, Dict.get?_set_same]
        · exact fun k hk => Dict.get?_set_other _ _ _ _ (fun e => hk e.symm)
        · exact fun k hk => Dict.get?_erase_other _ _ _ (fun e => hk e.symm)
      · refine ⟨box, objs, ?_, hwf, ?_, fun _ _ => rfl, fun _ _ => rfl⟩
        · rcases h2 with h2 | h2 <;>
          simp [toBox, retrieve, h2, h1, Obj.isNone, bind, Except.bind, pure, Except.pure]
        · rw [h3]; exact hb name (by simp)
    obtain ⟨box1, objs1, s1, s2, s3, s4, s5⟩ := step
    have hne : ∀ n, n ∈ args.map Prod.fst → n ≠ name := by
      intro n hnm e; subst e; exact hn.1 hnm
    obtain ⟨box', objs', r1, r2, r3, r4⟩ := ih hn.2 box1 objs1 s2
      (by intro n hnm; rw [s4 n (hne n hnm)]; exact hb n (by simp [hnm]))
      (by
        intro n c' hm
        rw [s5 n (hne n (List.mem_map.2 ⟨_, hm, rfl⟩))]
        exact h n c' (List.mem_cons_of_mem _ hm))
    refine ⟨box', objs', ?_, r2, ?_, ?_⟩
    · simp [toBoxAll, s1, r1, bind, Except.bind]
    · intro n c' hm
      rcases List.mem_cons.1 hm with e | hm
      · cases e
        rw [r4 name hn.1, s3]; exact hv
      · have := r3 n c' hm
        rwa [s5 n (hne n (List.mem_map.2 ⟨_, hm, rfl⟩))] at this
    · intro k hk
      rw [List.map_cons, List.mem_cons, not_or] at hk
      rw [r4 k hk.2, s4 k hk.1]

theorem fromBoxAll_spec (args : ArgList) (hn : (args.map Prod.fst).Nodup) (strings : Dict Str Val)
    (objs : Dict Str Obj) (hb : ∀ n ∈ args.map Prod.fst, n ∉ Dict.keys objs)
    (h : ∀ n c, (n, c) ∈ args → ∃ o, Dec c (Dict.get? strings n) o) :
    ∃ strings' objs', fromBoxAll args (strings, objs) = .ok (strings', objs') ∧
      Dict.keys objs' = Dict.keys objs ++ args.map Prod.fst ∧
      (∀ n c, (n, c) ∈ args → Dec c (Dict.get? strings n) (Dict.get? objs' n)) ∧
      ∀ k, k ∉ args.map Prod.fst → Dict.get? objs' k = Dict.get? objs k := by
  induction args generalizing strings objs with
  | nil => exact ⟨strings, objs, rfl, by simp, by simp, by simp⟩
  | cons a args ih =>
    obtain ⟨name, c⟩ := a
    rw [List.map_cons, List.nodup_cons] at hn
    obtain ⟨o, ho⟩ := h name c (by simp)
    have step : ∃ x strings1, fromBox name c (strings, objs) = .ok (strings1, Dict.set objs name x) ∧ o = some x ∧
        ∀ k, k ≠ name → Dict.get? strings1 k = Dict.get? strings k := by
      rcases ho with ⟨w, x, h1, h2, h3⟩ | ⟨h1, h2, h3⟩
      · refine ⟨x, Dict.erase strings name, ?_, h3, ?_⟩
        · simp [fromBox, retrieve, h1, h2, bind, Except.bind, pure, Except.pure]
        · exact fun k hk => Dict.get?_erase_other _ _ _ (fun e => hk e.symm)
      · refine ⟨.none, strings, ?_, h3, fun _ _ => rfl⟩
        simp [fromBox, retrieve, h1, h2, bind, Except.bind, pure, Except.pure]
    obtain ⟨x, strings1, s1, s2, s3⟩ := step
    have hne : ∀ n, n ∈ args.map Prod.fst → n ≠ name := by
      intro n hnm e; subst e; exact hn.1 hnm
    have hnew : name ∉ Dict.keys objs := hb name (by simp)
    have hkeys : Dict.keys (Dict.set objs name x) = Dict.keys objs ++ [name] := by
      rw [Dict.set_of_not_mem _ hnew]; simp [Dict.keys]
    obtain ⟨strings', objs', r1, r2, r3, r4⟩ := ih hn.2 strings1 (Dict.set objs name x)
      (by
        intro n hnm
        rw [hkeys, List.mem_append, not_or]
        exact ⟨hb n (by simp [hnm]), by simpa using hne n hnm⟩)
      (by
        intro n c' hm
        rw [s3 n (hne n (List.mem_map.2 ⟨_, hm, rfl⟩))]
        exact h n c' (List.mem_cons_of_mem _ hm))
    refine ⟨strings', objs', ?_, ?_, ?_, ?_⟩
    · simp [fromBoxAll, s1, r1, bind, Except.bind]
    · rw [r2, hkeys]; simp
    · intro n c' hm
      rcases List.mem_cons.1 hm with e | hm
      · cases e
        rw [r4 name hn.1, Dict.get?_set_same, ← s2]; exact ho
      · have := r3 n c' hm
        rwa [s3 n (hne n (List.mem_map.2 ⟨_, hm, rfl⟩))] at this
    · intro k hk
      rw [List.map_cons, List.mem_cons, not_or] at hk
      rw [r4 k hk.2, Dict.get?_set_other _ _ _ _ (fun e => hk.1 e.symm)]

/-- A box can only be made if every required argument was given. -/
theorem toBoxAll_required (args : ArgList) (st st' : Dict Str Val × Dict Str Obj) (h : toBoxAll args st = .ok st')
    (n : Str) (c : Codec) (hm : (n, c) ∈ args) (ho : c.optional = false) : ∃ x, Dict.get? st.2 n = some x := by
  induction args generalizing st with
  | nil => cases hm
  | cons a args ih =>
    obtain ⟨name, c'⟩ := a
    simp only [toBoxAll, bind, Except.bind] at h
    split at h
    · cases h
    · rename_i st1 h1
      rcases List.mem_cons.1 hm with e | hm
      · cases e
        cases hg : Dict.get? st.2 n with
        | some x => exact ⟨x, rfl⟩
        | none => simp [toBox, retrieve, hg, ho, bind, Except.bind] at h1
      · obtain ⟨x, hx⟩ := ih st1 h hm
        have sub : ∀ (d : Dict Str Obj), (Dict.get? (Dict.erase d name) n).isSome → (Dict.get? d n).isSome := by
          intro d
          induction d with
          | nil => exact fun h => h
          | cons p d ihd =>
            obtain ⟨k, v⟩ := p
            by_cases hk : k = name
            · rw [Dict.erase, if_pos hk]
              intro h; rw [Dict.get?]; split
              · rfl
              · exact h
            · rw [Dict.erase, if_neg hk, Dict.get?, Dict.get?]
              split
              · exact fun _ => rfl
              · exact ihd
        have h2 : (Dict.get? st.2 n).isSome := by
          unfold toBox at h1
          simp only [bind, Except.bind] at h1
          split at h1
          · cases h1
          · rename_i v hv
            unfold retrieve at hv
            split at hv
            · split at hv
              · cases hv
                simp only [pure, Except.pure, Except.ok.injEq] at h1
                rw [← h1] at hx; simp only at hx; rw [hx]; rfl
              · cases hv
                simp only at h1
                split at h1
                · cases h1
                · simp only [pure, Except.pure, Except.ok.injEq] at h1
                  rw [← h1] at hx
                  apply sub
                  simp only at hx; rw [hx]; rfl
            · split at hv
              · cases hv
                simp only [pure, Except.pure, Except.ok.injEq] at h1
                rw [← h1] at hx; simp only at hx; rw [hx]; rfl
              · cases hv
        exact Option.isSome_iff_exists.1 h2

/-! ### Serialising boxes whose values may be `bytes` -/

theorem bytes_of_wireText {v : Val} {t : Str} (h : WireText v t) : v.bytes = ensureBinary t := by
  cases v with
  | text s => cases h; rfl
  | raw b => unfold WireText at h; simp [Val.bytes, ensureBinary, h]

theorem serialize_eq (box : Dict Str Val) (tb : Box) (h : List.Forall₂ (fun p q => p.1 = q.1 ∧ p.1 ≠ BODY ∧ WireText p.2 q.2) box tb) :
    serialize box = Juice.serialize tb := by
  have hget : ∀ (l : Dict Str Val) (l' : Box),
      List.Forall₂ (fun p q => p.1 = q.1 ∧ p.1 ≠ BODY ∧ WireText p.2 q.2) l l' → ∀ k,
      Dict.has l k = Dict.has l' k := by
    intro l l' hl k
    induction hl with
    | nil => rfl
    | @cons p q l l' hp hl ih =>
      obtain ⟨k1, v1⟩ := p
      obtain ⟨k2, v2⟩ := q
      simp only at hp
      obtain ⟨rfl, -, -⟩ := hp
      unfold Dict.has at *
      rw [Dict.get?, Dict.get?]
      split
      · rfl
      · exact ih
  have hitems : ∀ (b0 : Dict Str Val) (t0 : Box) (l : Dict Str Val) (l' : Box),
      List.Forall₂ (fun p q => p.1 = q.1 ∧ p.1 ≠ BODY ∧ WireText p.2 q.2) l l' →
      serializeItems b0 l = Juice.serializeItems t0 l' := by
    intro b0 t0 l l' hl
    induction hl with
    | nil => rfl
    | @cons p q l l' hp hl ih =>
      obtain ⟨k1, v1⟩ := p
      obtain ⟨k2, v2⟩ := q
      simp only at hp
      obtain ⟨rfl, hb, hw⟩ := hp
      rw [serializeItems, Juice.serializeItems, serializeItem, if_neg hb, if_neg hb, ih]
      simp only [bytes_of_wireText hw]
      cases ensureBinary k1 with
      | error e => rfl
      | ok kb =>
        cases ensureBinary v2 with
        | error e => rfl
        | ok vb =>
          simp only [bind, Except.bind, pure, Except.pure]
  have hnb : Dict.get? box BODY = none := by
    rw [Dict.get?_eq_none_iff]
    clear hget hitems
    induction h with
    | nil => simp [Dict.keys]
    | @cons p q l l' hp hl ih =>
      unfold Dict.keys at *
      rw [List.map_cons, List.mem_cons, not_or]
      exact ⟨fun e => hp.2.1 e.symm, ih⟩
  have hnb' : Dict.get? tb BODY = none := by
    have := hget box tb h BODY
    unfold Dict.has at this
    rw [hnb] at this
    cases hg : Dict.get? tb BODY with
    | none => rfl
    | some x => rw [hg] at this; cases this
  unfold serialize Juice.serialize
  rw [hget box tb h LENGTH, hnb, hnb', hitems box tb box tb h]

/-! ### What a serialised box looks like as text -/

/-- `b` is the encoding of well-formed text. -/
def IsUtf8 (b : Bytes) : Prop := ∃ t, (∀ c ∈ t, IsScalar c) ∧ utf8Encode t = some b

theorem IsUtf8.append {a b : Bytes} (ha : IsUtf8 a) (hb : IsUtf8 b) : IsUtf8 (a ++ b) := by
  obtain ⟨s, h1, h2⟩ := ha
  obtain ⟨t, h3, h4⟩ := hb
  refine ⟨s ++ t, ?_, ?_⟩
  · intro c hc
    rcases List.mem_append.1 hc with hc | hc
    · exact h1 c hc
    · exact h3 c hc
  · rw [utf8Encode_append, h2, h4]; rfl

theorem IsUtf8.ascii {a : Bytes} (h : ∀ c ∈ a, c < 128) : IsUtf8 a :=
  ⟨a, fun c hc => Or.inl (by have := h c hc; omega), utf8Encode_ascii a h⟩

theorem IsUtf8.nil : IsUtf8 [] := .ascii (by simp)

theorem IsUtf8.flatten {l : List Bytes} (h : ∀ b ∈ l, IsUtf8 b) : IsUtf8 l.flatten := by
  induction l with
  | nil => exact .nil
  | cons b l ih =>
    rw [List.flatten_cons]
    exact (h b (by simp)).append (ih fun x hx => h x (List.mem_cons_of_mem _ hx))

theorem escape_high (h r : Bytes) (hh : ∀ b ∈ h, 128 ≤ b) : escape (h ++ r) = h ++ escape r := by
  induction h with
  | nil => rfl
  | cons c h ih =>
    have hc := hh c (by simp)
    rw [List.cons_append, escape_cons _ _ (by omega), ih (fun b hb => hh b (List.mem_cons_of_mem _ hb)), List.cons_append]

theorem encode_escape (v vb : List Nat) (h : utf8Encode v = some vb) : utf8Encode (escape v) = some (escape vb) := by
  induction hn : v.length using Nat.strongRecOn generalizing v vb with
  | ind n ih =>
    subst hn
    cases v with
    | nil => cases h; rfl
    | cons c v =>
      obtain ⟨hc, w, hw, rfl⟩ := utf8Encode_cons h
      by_cases h13 : c = 13 ∧ v.head? = some 10
      · obtain ⟨rfl, hv⟩ := h13
        cases v with
        | nil => cases hv
        | cons d v =>
          simp only [List.head?_cons, Option.some.injEq] at hv
          subst hv
          obtain ⟨-, w', hw', rfl⟩ := utf8Encode_cons hw
          have := ih v.length (by simp; omega) v w' hw' rfl
          have e1 : utf8Char 13 = [13] := by decide
          have e2 : utf8Char 10 = [10] := by decide
          have e3 : utf8Char 32 = [32] := by decide
          have i1 : IsScalar 13 := by decide
          have i2 : IsScalar 10 := by decide
          have i3 : IsScalar 32 := by decide
          rw [e1, e2]
          simp only [List.cons_append, List.nil_append, escape]
          rw [utf8Encode, if_pos i1, utf8Encode, if_pos i2, utf8Encode, if_pos i3, this, e1, e2, e3]
          rfl
      · rw [escape_cons _ _ h13, utf8Encode, if_pos hc, ih v.length (by simp) v w hw rfl]
        simp only [Option.map_some, Option.some.injEq]
        by_cases hlow : c < 128
        · have e1 : utf8Char c = [c] := by unfold utf8Char; rw [if_pos hlow]
          rw [e1, List.singleton_append, List.singleton_append, escape_cons]
          rintro ⟨rfl, hw10⟩
          apply h13
          refine ⟨rfl, ?_⟩
          cases v with
          | nil => cases hw; cases hw10
          | cons d v =>
            obtain ⟨-, w', -, rfl⟩ := utf8Encode_cons hw
            have hne := utf8Char_ne_nil d
            have : (utf8Char d).head? = some 10 := by
              cases hd : utf8Char d with
              | nil => exact absurd hd hne
              | cons x xs => rw [hd] at hw10; simpa using hw10
            simp [utf8Char_head (by omega) this]
        · rw [escape_high _ _ (fun b hb => utf8Char_high c (by omega) b hb)]

theorem isUtf8_escape {v : Str} {vb : Bytes} (h : utf8Encode v = some vb) (hs : ∀ c ∈ v, IsScalar c) :
    IsUtf8 (escape vb) := by
  refine ⟨escape v, ?_, encode_escape v vb h⟩
  intro c hc
  have : ∀ (n : Nat) (v : List Nat), v.length ≤ n → ∀ c ∈ escape v, c = 32 ∨ c ∈ v := by
    intro n
    induction n with
    | zero => intro v hv c hc; cases v with
      | nil => cases hc
      | cons a v => simp at hv
    | succ n ih =>
      intro v hv c hc
      cases v with
      | nil => cases hc
      | cons a v =>
        by_cases h13 : a = 13 ∧ v.head? = some 10
        · obtain ⟨rfl, hv'⟩ := h13
          cases v with
          | nil => cases hv'
          | cons d v =>
            simp only [List.head?_cons, Option.some.injEq] at hv'
            subst hv'
            simp only [escape, List.mem_cons] at hc
            simp only [List.length_cons] at hv
            rcases hc with rfl | rfl | rfl | hc
            · right; simp
            · right; simp
            · left; rfl
            · rcases ih v (by omega) c hc with h | h
              · exact .inl h
              · right; simp [h]
        · rw [escape_cons _ _ h13] at hc
          simp only [List.length_cons] at hv
          rcases List.mem_cons.1 hc with rfl | hc
          · right; simp
          · rcases ih v (by omega) c hc with h | h
            · exact .inl h
            · right; simp [h]
  rcases this _ v (Nat.le_refl _) c hc with rfl | hc
  · decide
  · exact hs c hc

theorem title_ascii (prev : Bool) (s : List Nat) (h : ∀ c ∈ s, c < 128) : ∀ c ∈ titleFrom prev s, c < 128 := by
  induction s generalizing prev with
  | nil => intro c hc; cases hc
  | cons a s ih =>
    intro c hc
    have ha := h a (by simp)
    rw [titleFrom] at hc
    rcases List.mem_cons.1 hc with rfl | hc
    · unfold asciiLower asciiUpper
      split <;> split <;> omega
    · exact ih _ (fun x hx => h x (List.mem_cons_of_mem _ hx)) c hc

/-- A legal box is written as well-formed text. -/
theorem legal_isUtf8 (b : Box) (hb : LegalBox b) (hbody : ∀ p ∈ b, p.1 ≠ BODY) (x : Bytes)
    (hx : Juice.serialize b = .ok x) : IsUtf8 x := by
  have hcrlf : IsUtf8 CRLF := .ascii (by decide)
  have hi : ∀ (b0 : Box) (l : List (Str × Str)), (∀ p ∈ l, p ∈ b) → ∀ y, Juice.serializeItems b0 l = .ok y → IsUtf8 y := by
    intro b0 l
    induction l with
    | nil => intro _ y hy; cases hy; exact .nil
    | cons p l ih =>
      intro hl y hy
      obtain ⟨k, v⟩ := p
      have hp := hl (k, v) (by simp)
      rw [Juice.serializeItems, serializeItem, if_neg (hbody _ hp)] at hy
      have hk : ensureBinary k = .ok k := by
        unfold ensureBinary; rw [utf8Encode_ascii k (hb.keys _ hp).1.ascii]
      simp only [hk] at hy
      cases hv : utf8Encode v with
      | none => simp [ensureBinary, hv, bind, Except.bind] at hy
      | some vb =>
        cases hr : Juice.serializeItems b0 l with
        | error e => simp [ensureBinary, hv, hr, bind, Except.bind, pure, Except.pure] at hy
        | ok r =>
          simp only [ensureBinary, hv, hr, bind, Except.bind, pure, Except.pure, Except.ok.injEq] at hy
          subst hy
          refine (((IsUtf8.append (IsUtf8.append ?_ (.ascii (by decide))) (isUtf8_escape hv (hb.values _ hp))).append
            hcrlf)).append (ih (fun q hq => hl q (List.mem_cons_of_mem _ hq)) r hr)
          apply IsUtf8.ascii
          apply title_ascii
          intro c hc
          rcases mem_replaceChar hc with rfl | hc
          · omega
          · exact (hb.keys _ hp).1.ascii c hc
  have hnb : Dict.get? b BODY = none := by
    rw [Dict.get?_eq_none_iff]
    intro hm
    obtain ⟨p, hp, e⟩ := List.mem_map.1 hm
    exact hbody p hp e
  unfold Juice.serialize at hx
  rw [hnb] at hx
  split at hx
  · cases hx
  · cases hr : Juice.serializeItems b b with
    | error e => simp [hr, bind, Except.bind] at hx
    | ok r =>
      simp only [hr, bind, Except.bind, pure, Except.pure, Except.ok.injEq] at hx
      subst hx
      exact (hi b b (fun _ h => h) r hr).append hcrlf

end Verif.JuiceArgs
