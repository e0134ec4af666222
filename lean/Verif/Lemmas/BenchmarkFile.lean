import Verif.Model.BenchmarkFile
import Verif.Props.JuiceArgs
import Verif.Props.JuiceTypes
/-!
# Lemmas about writing commands with known texts
-/
namespace Verif.BenchmarkFile
open Verif.Py Verif.Juice Verif.JuiceArgs

theorem enc_unique {c : Codec} {o : Option Obj} {v v' : Option Val} (h : Enc c o v) (h' : Enc c o v') : v = v' := by
  rcases h with ⟨x, w, h1, h2, h3, h4⟩ | ⟨h1, h2, h3⟩ <;> rcases h' with ⟨x', w', k1, k2, k3, k4⟩ | ⟨k1, k2, k3⟩
  · rw [h1] at k1; cases k1
    rw [h3] at k3; cases k3
    rw [h4, k4]
  · rcases k2 with k2 | k2
    · rw [h1] at k2; cases k2
    · rw [h1] at k2; cases k2; exact absurd ⟨k1, rfl⟩ h2
  · rcases h2 with h2 | h2
    · rw [k1] at h2; cases h2
    · rw [k1] at h2; cases h2; exact absurd ⟨h1, rfl⟩ k2
  · rw [h3, k3]

/-- The box of a command whose arguments have the texts `texts`. -/
theorem written (args : ArgList) (hn : (args.map Prod.fst).Nodup) (objs : Dict Str Obj) (texts : Box)
    (hwf : (texts.map Prod.fst).Nodup) (hsub : ∀ p ∈ texts, p.1 ∈ args.map Prod.fst)
    (h : ∀ n c, (n, c) ∈ args → (Enc c (Dict.get? objs n) none ∧ Dict.get? texts n = none) ∨
      ∃ w t, Enc c (Dict.get? objs n) (some w) ∧ WireText w t ∧ Dict.get? texts n = some t) :
    ∃ box objs' tb, toBoxAll args ([], objs) = .ok (box, objs') ∧
      List.Forall₂ (fun p q => p.1 = q.1 ∧ WireText p.2 q.2) box tb ∧ SameBox texts tb := by
  obtain ⟨box, objs', b1, b2, b3, b4⟩ := toBoxAll_spec args hn [] objs Dict.WF.nil (by simp)
    (fun n c hm => by
      rcases h n c hm with ⟨h1, -⟩ | ⟨w, t, h1, -⟩
      · exact ⟨_, h1⟩
      · exact ⟨_, h1⟩)
  have hkeys : ∀ k ∈ Dict.keys box, k ∈ args.map Prod.fst := by
    intro k hk
    apply Classical.byContradiction
    intro hc
    have := b4 k hc
    rw [Dict.get?_nil, Dict.get?_eq_none_iff] at this
    exact this hk
  have hval : ∀ k v, (k, v) ∈ box → ∃ t, WireText v t ∧ Dict.get? texts k = some t := by
    intro k v hm
    obtain ⟨⟨k', c⟩, hmc, e⟩ := List.mem_map.1 (hkeys k (List.mem_map.2 ⟨_, hm, rfl⟩))
    simp only at e; subst e
    have he := b3 k' c hmc
    rw [Dict.get?_of_mem b2 hm] at he
    rcases h k' c hmc with ⟨h1, -⟩ | ⟨w, t, h1, h2, h3⟩
    · have := enc_unique he h1; cases this
    · have := enc_unique he h1; cases this
      exact ⟨t, h2, h3⟩
  have htb : ∃ tb : Box, List.Forall₂ (fun p q => p.1 = q.1 ∧ WireText p.2 q.2) box tb ∧
      ∀ q ∈ tb, Dict.get? texts q.1 = some q.2 := by
    clear b1 b2 b3 b4 hkeys
    induction box with
    | nil => exact ⟨[], .nil, by simp⟩
    | cons p box ih =>
      obtain ⟨k, v⟩ := p
      obtain ⟨t, h1, h2⟩ := hval k v (by simp)
      obtain ⟨tb, h3, h4⟩ := ih (fun k v hm => hval k v (List.mem_cons_of_mem _ hm))
      refine ⟨(k, t) :: tb, .cons ⟨rfl, h1⟩ h3, ?_⟩
      intro q hq
      rcases List.mem_cons.1 hq with rfl | hq
      · exact h2
      · exact h4 q hq
  obtain ⟨tb, t1, t2⟩ := htb
  have hfst : tb.map Prod.fst = box.map Prod.fst := by
    clear b1 b2 b3 b4 hkeys hval t2
    induction t1 with
    | nil => rfl
    | cons hp _ ih => rw [List.map_cons, List.map_cons, ih, hp.1]
  refine ⟨box, objs', tb, b1, t1, by rw [hfst]; exact b2, ?_⟩
  intro p
  constructor
  · exact fun hp => Dict.mem_of_get? (t2 p hp)
  · intro hp
    have hg := Dict.get?_of_mem (d := texts) hwf hp
    obtain ⟨⟨n, c⟩, hm, e⟩ := List.mem_map.1 (hsub p hp)
    simp only at e
    have he := b3 n c hm
    rcases h n c hm with ⟨-, h1⟩ | ⟨w, t, h1, h2, h3⟩
    · rw [e, hg] at h1; cases h1
    · have hb := enc_unique he h1
      have hk : n ∈ tb.map Prod.fst := by
        rw [hfst]; exact List.mem_map.2 ⟨_, Dict.mem_of_get? hb, rfl⟩
      obtain ⟨q, hq, e'⟩ := List.mem_map.1 hk
      have := t2 q hq
      rw [e', e, hg] at this
      have hpq : p = q := by
        cases p; cases q
        simp only [Option.some.injEq] at this e e' ⊢
        rw [← e, ← e', this]
      rw [hpq]; exact hq

/-- The first argument that cannot be written stops the writing. -/
theorem toBoxAll_error (pre : ArgList) (n : Str) (c : Codec) (post : ArgList)
    (hn : ((pre ++ (n, c) :: post).map Prod.fst).Nodup) (box : Dict Str Val) (objs : Dict Str Obj)
    (h : ∀ m d, (m, d) ∈ pre → ∃ v, Enc d (Dict.get? objs m) v) (x : Obj) (e : PyErr) (hx : Dict.get? objs n = some x)
    (ho : c.optional = false) (he : c.enc x = .error e) :
    toBoxAll (pre ++ (n, c) :: post) (box, objs) = .error e := by
  induction pre generalizing box objs with
  | nil => simp [toBoxAll, toBox, retrieve, hx, ho, he, bind, Except.bind]
  | cons a pre ih =>
    obtain ⟨name, d⟩ := a
    rw [List.cons_append, List.map_cons, List.nodup_cons] at hn
    obtain ⟨v, hv⟩ := h name d (by simp)
    have step : ∃ box1 objs1, toBox name d (box, objs) = .ok (box1, objs1) ∧
        ∀ k, k ≠ name → Dict.get? objs1 k = Dict.get? objs k := by
      rcases hv with ⟨y, w, h1, h2, h3, h4⟩ | ⟨h1, h2, h3⟩
      · refine ⟨Dict.set box name w, Dict.erase objs name, ?_, ?_⟩
        · have : (d.optional && y.isNone) = false := by
            cases hc : d.optional <;> cases hx : y.isNone <;> simp_all
          simp [toBox, retrieve, h1, this, h3, bind, Except.bind, pure, Except.pure]
        · exact fun k hk => Dict.get?_erase_other _ _ _ (fun e => hk e.symm)
      · refine ⟨box, objs, ?_, fun _ _ => rfl⟩
        rcases h2 with h2 | h2 <;>
        simp [toBox, retrieve, h2, h1, Obj.isNone, bind, Except.bind, pure, Except.pure]
    obtain ⟨box1, objs1, s1, s2⟩ := step
    have hne : ∀ m, m ∈ (pre ++ (n, c) :: post).map Prod.fst → m ≠ name := by
      intro m hm e; subst e; exact hn.1 hm
    have := ih hn.2 box1 objs1
      (by
        intro m d' hm
        rw [s2 m (hne m (List.mem_map.2 ⟨_, List.mem_append_left _ hm, rfl⟩))]
        exact h m d' (List.mem_cons_of_mem _ hm))
      (by rw [s2 n (hne n (by simp))]; exact hx)
    simp [toBoxAll, s1, this, bind, Except.bind]

theorem utf8Encode_scalar {s b : List Nat} (h : utf8Encode s = some b) : ∀ c ∈ s, IsScalar c := by
  induction s generalizing b with
  | nil => simp
  | cons c s ih =>
    simp only [utf8Encode] at h
    split at h
    · rename_i hc
      cases hs : utf8Encode s with
      | none => rw [hs] at h; cases h
      | some b' =>
        intro d hd
        rcases List.mem_cons.1 hd with rfl | hd
        · exact hc
        · exact ih hs d hd
    · cases h

end Verif.BenchmarkFile
