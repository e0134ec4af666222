import Verif.Model.CaselessUse
import Verif.Props.Caseless
/-!
# C104, C105 — `Caseless` as a key, and its delegated methods

Specification of a dictionary: a map from texts, the same for texts that differ only in case, to the spelling that was used
first and the value.
-/
namespace Verif.Caseless
open Verif.Py

/-! ## C104: dictionaries -/

/-- What is done with a dictionary whose keys are all `Caseless`. -/
inductive KOp where
  | get (k : Str)
  | set (k : Str) (v : Nat)
  | del (k : Str)

def KOp.op : KOp → DOp
  | .get k => .get (.caseless k)
  | .set k v => .set (.caseless k) v
  | .del k => .del (.caseless k)

/-- A case-insensitive map. -/
abbrev CMap := Str → Option (Str × Nat)

open Classical in
/-- What each operation does to a case-insensitive map. -/
noncomputable def specStep (m : CMap) : KOp → CMap × Except PyErr (Option Nat)
  | .get k =>
    match m k with
    | some (_, v) => (m, .ok (some v))
    | none => (m, .error .keyError)
  | .set k v =>
    match m k with
    | some (k₀, _) => (fun k' => if CaseVariant k' k then some (k₀, v) else m k', .ok none)
    | none => (fun k' => if CaseVariant k' k then some (k, v) else m k', .ok none)
  | .del k =>
    match m k with
    | some _ => (fun k' => if CaseVariant k' k then none else m k', .ok none)
    | none => (m, .error .keyError)

noncomputable def specRun (m : CMap) : List KOp → CMap × List (Except PyErr (Option Nat))
  | [] => (m, [])
  | o :: os =>
    let r := specStep m o
    let r' := specRun r.1 os
    (r'.1, r.2 :: r'.2)

/-- A dictionary holds what a map says: its entries, each once, are the spellings and values of the map, and there is one for
every text at which the map has something. -/
structure Holds (t : Table) (m : CMap) : Prop where
  once : (t.map Prod.fst).Nodup
  sound : ∀ o v, (o, v) ∈ t → ∃ a, o = .caseless a ∧ m a = some (a, v)
  complete : ∀ k a v, m k = some (a, v) → CaseVariant a k ∧ (.caseless a, v) ∈ t
  blind : ∀ k k', CaseVariant k k' → m k = m k'

theorem CaseVariant.refl (a : Str) : CaseVariant a a := (lower_eq_iff a a).1 rfl
theorem CaseVariant.symm {a b : Str} (h : CaseVariant a b) : CaseVariant b a :=
  (lower_eq_iff b a).1 ((lower_eq_iff a b).2 h).symm
theorem CaseVariant.trans {a b c : Str} (h : CaseVariant a b) (h' : CaseVariant b c) : CaseVariant a c :=
  (lower_eq_iff a c).1 (((lower_eq_iff a b).2 h).trans ((lower_eq_iff b c).2 h'))

theorem findIn_spec {t : Table} {m : CMap} (H : Holds t m) (σ : Search) (q : Obj) (k : Str)
    (hq : pyHash σ.h σ.g q = σ.h (lower k)) (he : ∀ a, pyEq (.caseless a) q = .ok (eq a k)) :
    ∀ es : Table, (∀ e ∈ es, e ∈ t) →
      (∀ a v, m k = some (a, v) → (.caseless a, v) ∈ es → findIn σ q es = .ok (some (.caseless a))) ∧
      ((∀ a v, m k = some (a, v) → (.caseless a, v) ∉ es) → findIn σ q es = .ok none)
  | [], _ => ⟨fun _ _ _ h => absurd h (by simp), fun _ => rfl⟩
  | (o, w) :: es, hsub => by
    obtain ⟨b, rfl, hb⟩ := H.sound o w (hsub _ (by simp))
    obtain ⟨ih1, ih2⟩ := findIn_spec H σ q k hq he es fun e h => hsub e (by simp [h])
    by_cases hv : CaseVariant b k
    · have h1 : pyHash σ.h σ.g (.caseless b) = pyHash σ.h σ.g q := by
        rw [hq]; exact congrArg σ.h ((lower_eq_iff b k).2 hv)
      have h2 : pyEq (.caseless b) q = .ok true := by rw [he, (caseless_eq_iff b k).2 hv]
      have hm : m k = some (b, w) := by rw [← H.blind b k hv, hb]
      have hf : findIn σ q ((.caseless b, w) :: es) = .ok (some (.caseless b)) := by
        simp only [findIn, h1, h2, if_true]
      refine ⟨fun a v h _ => ?_, fun h => ?_⟩
      · rw [hm] at h
        obtain ⟨rfl, rfl⟩ : b = a ∧ w = v := by simpa using h
        exact hf
      · exact absurd (List.mem_cons_self ..) (h b w hm)
    · have h2 : pyEq (.caseless b) q = .ok false := by
        rw [he, Bool.eq_false_iff.2 fun h => hv ((caseless_eq_iff b k).1 h)]
      have hf : findIn σ q ((.caseless b, w) :: es) = findIn σ q es := by
        simp only [findIn, h2, ite_self]
      rw [hf]
      refine ⟨fun a v h hmem => ih1 a v h ?_, fun h => ih2 fun a v hm hmem => h a v hm (by simp [hmem])⟩
      rcases List.mem_cons.1 hmem with h' | h'
      · obtain ⟨rfl, rfl⟩ : a = b ∧ v = w := by simpa using h'
        exact absurd (H.complete k a v h).1 hv
      · exact h'

theorem findKey_spec {t : Table} {m : CMap} (H : Holds t m) (σ : Search) (q : Obj) (k : Str)
    (hq : pyHash σ.h σ.g q = σ.h (lower k)) (he : ∀ a, pyEq (.caseless a) q = .ok (eq a k)) :
    findKey σ t q = .ok ((m k).map fun e => .caseless e.1) := by
  have hp := σ.perm t q
  obtain ⟨h1, h2⟩ := findIn_spec H σ q k hq he (σ.probe t q) fun e h => hp.mem_iff.1 h
  unfold findKey
  cases hm : m k with
  | none => exact h2 fun a v h => by rw [hm] at h; cases h
  | some e =>
    obtain ⟨a, v⟩ := e
    exact h1 a v hm (hp.mem_iff.2 (H.complete k a v hm).2)

theorem findKey_caseless {t : Table} {m : CMap} (H : Holds t m) (σ : Search) (k : Str) :
    findKey σ t (.caseless k) = .ok ((m k).map fun e => .caseless e.1) :=
  findKey_spec H σ _ k rfl fun _ => rfl

theorem mem_iff_get? {t : Table} (h : (t.map Prod.fst).Nodup) (o : Obj) (v : Nat) : (o, v) ∈ t ↔ Dict.get? t o = some v :=
  ⟨fun hm => Dict.get?_of_mem h hm, Dict.mem_of_get?⟩

open Classical in
theorem Holds.put {t : Table} {m : CMap} (H : Holds t m) (k k₀ : Str) (v : Nat) (hk : CaseVariant k₀ k)
    (hu : ∀ a w, m k = some (a, w) → a = k₀) :
    Holds (Dict.set t (.caseless k₀) v) fun k' => if CaseVariant k' k then some (k₀, v) else m k' := by
  have hn : ((Dict.set t (Obj.caseless k₀) v).map Prod.fst).Nodup := Dict.WF.set H.once _ _
  refine ⟨hn, ?_, ?_, ?_⟩
  · intro o w hm
    rw [mem_iff_get? hn, Dict.get?_set] at hm
    split at hm
    · rename_i h
      subst h
      obtain rfl : v = w := by simpa using hm
      exact ⟨k₀, rfl, by simp [hk]⟩
    · rename_i h
      obtain ⟨a, rfl, ha⟩ := H.sound o w (Dict.mem_of_get? hm)
      refine ⟨a, rfl, ?_⟩
      split
      · rename_i hv
        rw [H.blind a k hv] at ha
        exact absurd (by rw [hu a w ha]) h
      · exact ha
  · intro k' a w hm
    rw [mem_iff_get? hn, Dict.get?_set]
    split at hm
    · rename_i hv
      obtain ⟨rfl, rfl⟩ : k₀ = a ∧ v = w := by simpa using hm
      exact ⟨hk.trans hv.symm, by simp⟩
    · rename_i hv
      obtain ⟨h1, h2⟩ := H.complete k' a w hm
      refine ⟨h1, ?_⟩
      rw [if_neg fun h => hv ?_]
      · exact (mem_iff_get? H.once _ _).1 h2
      · obtain rfl : k₀ = a := by simpa using h
        exact h1.symm.trans hk
  · intro x y hxy
    by_cases hx : CaseVariant x k
    · simp [hx, hxy.symm.trans hx]
    · have hy : ¬ CaseVariant y k := fun h => hx (hxy.trans h)
      simp only [hx, hy, if_false]
      exact H.blind x y hxy

open Classical in
theorem Holds.remove {t : Table} {m : CMap} (H : Holds t m) (k k₀ : Str) (w : Nat) (hm : m k = some (k₀, w)) :
    Holds (Dict.erase t (.caseless k₀)) fun k' => if CaseVariant k' k then none else m k' := by
  have hn : ((Dict.erase t (Obj.caseless k₀)).map Prod.fst).Nodup := Dict.WF.erase H.once _
  have hk := (H.complete k k₀ w hm).1
  refine ⟨hn, ?_, ?_, ?_⟩
  · intro o u hu
    rw [mem_iff_get? hn] at hu
    by_cases ho : o = .caseless k₀
    · subst ho
      rw [Dict.get?_erase_same H.once] at hu
      cases hu
    · rw [Dict.get?_erase_other _ _ _ (Ne.symm ho)] at hu
      obtain ⟨a, rfl, ha⟩ := H.sound o u (Dict.mem_of_get? hu)
      refine ⟨a, rfl, ?_⟩
      split
      · rename_i hv
        rw [H.blind a k hv, hm] at ha
        exact absurd (by simp at ha; rw [ha.1]) ho
      · exact ha
  · intro k' a u hu
    split at hu
    · cases hu
    · rename_i hv
      obtain ⟨h1, h2⟩ := H.complete k' a u hu
      refine ⟨h1, ?_⟩
      rw [mem_iff_get? hn, Dict.get?_erase_other]
      · exact (mem_iff_get? H.once _ _).1 h2
      · intro h
        obtain rfl : k₀ = a := by simpa using h
        exact hv (h1.symm.trans hk)
  · intro x y hxy
    by_cases hx : CaseVariant x k
    · simp [hx, hxy.symm.trans hx]
    · have hy : ¬ CaseVariant y k := fun h => hx (hxy.trans h)
      simp only [hx, hy, if_false]
      exact H.blind x y hxy

theorem Holds.nil : Holds [] fun _ => none :=
  ⟨by simp, fun _ _ h => absurd h (by simp), fun _ _ _ h => (by cases h), fun _ _ _ => rfl⟩

theorem Holds.step {t : Table} {m : CMap} (H : Holds t m) (σ : Search) (o : KOp) :
    Holds (dstep σ t o.op).1 (specStep m o).1 ∧ (dstep σ t o.op).2 = (specStep m o).2 := by
  cases o with
  | get k =>
    cases hm : m k with
    | none => simp [KOp.op, dstep, specStep, findKey_caseless H, hm, H]
    | some e =>
      obtain ⟨a, v⟩ := e
      have := (mem_iff_get? H.once _ _).1 (H.complete k a v hm).2
      simp [KOp.op, dstep, specStep, findKey_caseless H, hm, H, this]
  | set k v =>
    cases hm : m k with
    | none =>
      simp only [KOp.op, dstep, specStep, findKey_caseless H, hm, Option.map_none, and_true]
      have hnot : Obj.caseless k ∉ Dict.keys t := by
        intro h
        obtain ⟨e, he, hk⟩ := List.mem_map.1 h
        obtain ⟨a, ha, hma⟩ := H.sound e.1 e.2 he
        obtain rfl : k = a := by rw [hk] at ha; simpa using ha
        rw [hm] at hma
        cases hma
      rw [← Dict.set_of_not_mem v hnot]
      exact H.put k k v (CaseVariant.refl k) fun a w h => by rw [hm] at h; cases h
    | some e =>
      obtain ⟨a, w⟩ := e
      simp only [KOp.op, dstep, specStep, findKey_caseless H, hm, Option.map_some, and_true]
      exact H.put k a v (H.complete k a w hm).1 fun b u h => by rw [hm] at h; simp at h; exact h.1.symm
  | del k =>
    cases hm : m k with
    | none => simp [KOp.op, dstep, specStep, findKey_caseless H, hm, H]
    | some e =>
      obtain ⟨a, w⟩ := e
      simp only [KOp.op, dstep, specStep, findKey_caseless H, hm, Option.map_some, and_true]
      exact H.remove k a w hm

theorem Holds.run {t : Table} {m : CMap} (H : Holds t m) (σ : Search) (os : List KOp) :
    Holds (drun σ t (os.map KOp.op)).1 (specRun m os).1 ∧ (drun σ t (os.map KOp.op)).2 = (specRun m os).2 := by
  induction os generalizing t m with
  | nil => exact ⟨H, rfl⟩
  | cons o os ih =>
    obtain ⟨h1, h2⟩ := H.step σ o
    obtain ⟨h3, h4⟩ := ih h1
    exact ⟨h3, by simp only [List.map_cons, drun, specRun, h2, h4]⟩

/-- **C104.** A dictionary with `Caseless` keys is a case-insensitive map: whatever is done with it, in whatever order its
entries are met and however strings are hashed, all answers are those of the map, and its entries are those of the map, each
once, with the spelling that was used first. -/
theorem dict_is_caseless_map (σ : Search) (os : List KOp) :
    (drun σ [] (os.map KOp.op)).2 = (specRun (fun _ => none) os).2 ∧
    Holds (drun σ [] (os.map KOp.op)).1 (specRun (fun _ => none) os).1 :=
  ⟨(Holds.nil.run σ os).2, (Holds.nil.run σ os).1⟩

/-- **C104.** No two keys of such a dictionary are case variants of each other. -/
theorem dict_keys_differ (σ : Search) (os : List KOp) (a b : Str) (v w : Nat)
    (ha : (.caseless a, v) ∈ (drun σ [] (os.map KOp.op)).1) (hb : (.caseless b, w) ∈ (drun σ [] (os.map KOp.op)).1)
    (h : CaseVariant a b) : a = b ∧ v = w := by
  have H := (Holds.nil.run σ os).1
  obtain ⟨a', ea, ha'⟩ := H.sound _ _ ha
  obtain ⟨b', eb, hb'⟩ := H.sound _ _ hb
  obtain rfl : a = a' := by simpa using ea
  obtain rfl : b = b' := by simpa using eb
  rw [H.blind a b h, hb'] at ha'
  simp at ha'
  exact ⟨ha'.1.symm, ha'.2.symm⟩

/-- **C104.** A plain string finds what the `Caseless` of it finds, if it has no upper-case letters. -/
theorem dict_plain_partial (σ : Search) (os : List KOp) (s : Str) (h : ∀ c ∈ s, ¬ (65 ≤ c ∧ c ≤ 90)) :
    (dstep σ (drun σ [] (os.map KOp.op)).1 (.get (.plain s))).2 =
      (dstep σ (drun σ [] (os.map KOp.op)).1 (.get (.caseless s))).2 := by
  have H := (Holds.nil.run σ os).1
  have hl : lower s = s := by
    unfold lower
    calc s.map lowerCp = s.map id := List.map_congr_left fun c hc => by simp only [lowerCp, if_neg (h c hc), id]
      _ = s := List.map_id s
  have := findKey_spec H σ (.plain s) s (by rw [hl]; rfl) fun _ => rfl
  simp only [dstep, this, findKey_caseless H]

/-- **C104 is false of plain strings with upper-case letters**: such a string equals the key but does not find it. -/
theorem dict_plain_fails (σ : Search) (h : σ.h [65] ≠ σ.h [97]) :
    pyEq (.plain [65]) (.caseless [65]) = .ok true ∧
    (drun σ [] [.set (.caseless [65]) 1, .get (.plain [65])]).2 = [.ok none, .error .keyError] := by
  refine ⟨rfl, ?_⟩
  have hp0 : σ.probe [] (.caseless [65]) = [] := List.Perm.eq_nil (σ.perm _ _)
  have hp1 : σ.probe [(.caseless [65], 1)] (.plain [65]) = [(.caseless [65], 1)] := List.perm_singleton.1 (σ.perm _ _)
  have hne : ¬ pyHash σ.h σ.g (.caseless [65]) = pyHash σ.h σ.g (.plain [65]) := fun e => h (by
    have : σ.h (lower [65]) = σ.h [65] := e
    exact this.symm)
  simp only [drun, dstep, findKey, hp0, findIn, List.nil_append, hp1, if_neg hne]

/-- `==` among plain strings and `Caseless` is not transitive. -/
theorem eq_transitive_fails :
    pyEq (.plain [65]) (.caseless [97]) = .ok true ∧ pyEq (.caseless [97]) (.plain [97]) = .ok true ∧
      pyEq (.plain [65]) (.plain [97]) = .ok false := by decide

/-- A `Caseless` cannot be compared with anything that is not text: looking for one in a list raises unless it is found
before. -/
theorem other_fails (a : Str) (n : Nat) (l : List Obj) :
    pyEq (.caseless a) (.other n) = .error .attributeError ∧ pyEq (.other n) (.caseless a) = .error .attributeError ∧
      inList (.caseless a) (.other n :: l) = .error .attributeError := ⟨rfl, rfl, rfl⟩

/-- **C104.** In a list of `Caseless` and plain strings, exactly the case variants of its members are found. -/
theorem inList_iff (a : Str) (l : List Obj) (hl : ∀ y ∈ l, ∃ b, y = .caseless b ∨ y = .plain b) :
    inList (.caseless a) l = .ok true ↔ ∃ b, (.caseless b ∈ l ∨ .plain b ∈ l) ∧ CaseVariant a b := by
  induction l with
  | nil => simp [inList]
  | cons y l ih =>
    have ih := ih fun z hz => hl z (by simp [hz])
    obtain ⟨b, hy⟩ := hl y (by simp)
    by_cases h : CaseVariant b a
    · have he : inList (.caseless a) (y :: l) = .ok true := by
        rcases hy with rfl | rfl
        · simp only [inList, pyEq, (caseless_eq_iff b a).2 h]
        · simp only [inList, pyEq, (caseless_eq_iff a b).2 h.symm]
      simp only [he, true_iff]
      refine ⟨b, ?_, h.symm⟩
      rcases hy with rfl | rfl <;> simp
    · have he : inList (.caseless a) (y :: l) = inList (.caseless a) l := by
        rcases hy with rfl | rfl
        · have : eq b a = false := Bool.eq_false_iff.2 fun h' => h ((caseless_eq_iff b a).1 h')
          simp only [inList, pyEq, this]
        · have : eq a b = false := Bool.eq_false_iff.2 fun h' => h ((caseless_eq_iff a b).1 h').symm
          simp only [inList, pyEq, this]
      rw [he, ih]
      constructor
      · rintro ⟨c, hc | hc, h2⟩
        · exact ⟨c, Or.inl (by simp [hc]), h2⟩
        · exact ⟨c, Or.inr (by simp [hc]), h2⟩
      · rintro ⟨c, hc, h2⟩
        have hcb : c ≠ b := fun e => h (e ▸ h2.symm)
        refine ⟨c, ?_, h2⟩
        rcases hy with rfl | rfl
        · simpa [hcb] using hc
        · simpa [hcb] using hc

/-- **C104.** Wrapping a `Caseless` again makes no difference. -/
theorem init_again (a : Str) : init (.caseless a) = init (.str a) := rfl

/-! ## C104: sorting -/

theorem lt_iff_not_le (a b : Str) : lt a b = false ↔ Precedes b a ∨ CaseVariant a b := by
  have h := caseless_trichotomy a b
  have h1 := (caseless_order_derived a b).1
  have h2 := caseless_eq_iff a b
  rw [← h1, ← h2]
  rcases h with ⟨h, h', h''⟩ | ⟨h, h', h''⟩ | ⟨h, h', h''⟩ <;> simp [h, h', h'']

theorem not_lt_trans {a b c : Str} (h1 : lt b a = false) (h2 : lt c b = false) : lt c a = false := by
  rw [lt_iff_not_le] at *
  simp only [← caseless_lt_iff] at *
  rcases h1 with h1 | h1 <;> rcases h2 with h2 | h2
  · exact Or.inl (caseless_lt_trans a b c h1 h2)
  · left
    rw [← (caseless_case_blind a a b c (CaseVariant.refl a) h2.symm (fun _ => 0) none none).2.2.1]
    exact h1
  · left
    rw [← (caseless_case_blind b a c c h1 (CaseVariant.refl c) (fun _ => 0) none none).2.2.1]
    exact h2
  · exact Or.inr (h2.trans h1)

theorem insertKey_perm (x : Str) (l : List Str) : (insertKey x l).Perm (x :: l) := by
  induction l with
  | nil => exact List.Perm.refl _
  | cons y l ih =>
    unfold insertKey
    split
    · exact (ih.cons y).trans (List.Perm.swap x y l)
    · exact List.Perm.refl _

/-- **C104.** Sorting with `key=Caseless` gives the same strings, as often. -/
theorem sorted_perm (l : List Str) : (sortedKey l).Perm l := by
  induction l with
  | nil => exact List.Perm.refl _
  | cons x l ih => exact (insertKey_perm x _).trans (ih.cons x)

theorem insertKey_pairwise (x : Str) (l : List Str) (h : l.Pairwise fun a b => lt b a = false) :
    (insertKey x l).Pairwise fun a b => lt b a = false := by
  induction l with
  | nil => simp [insertKey]
  | cons y l ih =>
    rw [List.pairwise_cons] at h
    unfold insertKey
    split
    · rename_i hyx
      rw [List.pairwise_cons]
      refine ⟨fun b hb => ?_, ih h.2⟩
      rcases List.mem_cons.1 ((insertKey_perm x l).mem_iff.1 hb) with rfl | hb
      · rw [lt_iff_not_le]
        exact Or.inl ((caseless_lt_iff _ _).1 hyx)
      · exact h.1 b hb
    · rename_i hyx
      have hyx : lt y x = false := Bool.eq_false_iff.2 hyx
      rw [List.pairwise_cons]
      refine ⟨fun b hb => ?_, List.pairwise_cons.2 h⟩
      rcases List.mem_cons.1 hb with rfl | hb
      · exact hyx
      · exact not_lt_trans hyx (h.1 b hb)

/-- **C104.** What is sorted is in order: no string precedes, up to case, one that comes before it. -/
theorem sorted_ordered (l : List Str) : (sortedKey l).Pairwise fun a b => ¬ Precedes b a := by
  have : (sortedKey l).Pairwise fun a b => lt b a = false := by
    induction l with
    | nil => simp [sortedKey]
    | cons x l ih => exact insertKey_pairwise x _ ih
  exact this.imp fun {a b} h h' => by rw [(caseless_lt_iff b a).2 h'] at h; cases h

open Classical in
theorem insertKey_filter (k x : Str) (l : List Str) :
    (insertKey x l).filter (fun a => decide (CaseVariant a k)) = (x :: l).filter fun a => decide (CaseVariant a k) := by
  induction l with
  | nil => rfl
  | cons y l ih =>
    unfold insertKey
    split
    · rename_i hyx
      rw [List.filter_cons, ih]
      by_cases hy : CaseVariant y k
      · have hx : ¬ CaseVariant x k := fun hx => by
          have h := caseless_trichotomy y x
          rw [hyx, (caseless_eq_iff y x).2 (hy.trans hx.symm)] at h
          simp at h
        simp [List.filter_cons, hx, hy]
      · simp [List.filter_cons, hy]
    · rfl

open Classical in
/-- **C104.** The sort is stable: case variants of one text stay in the order they had. -/
theorem sorted_stable (k : Str) (l : List Str) :
    (sortedKey l).filter (fun a => decide (CaseVariant a k)) = l.filter fun a => decide (CaseVariant a k) := by
  induction l with
  | nil => rfl
  | cons x l ih =>
    rw [sortedKey, insertKey_filter, List.filter_cons, ih, List.filter_cons]

open Classical in
/-- **C104.** Order and stability determine the result: any stable sort by `Caseless` gives this list. -/
theorem sorted_unique (l r : List Str) (ho : r.Pairwise fun a b => ¬ Precedes b a)
    (hs : ∀ k, r.filter (fun a => decide (CaseVariant a k)) = l.filter fun a => decide (CaseVariant a k)) :
    r = sortedKey l := by
  have key : ∀ r s : List Str, (r.Pairwise fun a b => ¬ Precedes b a) → (s.Pairwise fun a b => ¬ Precedes b a) →
      (∀ k, r.filter (fun a => decide (CaseVariant a k)) = s.filter fun a => decide (CaseVariant a k)) → r = s := by
    intro r
    induction r with
    | nil =>
      intro s _ _ h
      cases s with
      | nil => rfl
      | cons y s => have := h y; simp [CaseVariant.refl] at this
    | cons x r ih =>
      intro s hr hs h
      cases s with
      | nil => have := h x; simp [CaseVariant.refl] at this
      | cons y s =>
        rw [List.pairwise_cons] at hr hs
        have hmem : ∀ {u v : List Str}, (∀ k, u.filter (fun a => decide (CaseVariant a k)) =
            v.filter fun a => decide (CaseVariant a k)) → ∀ a ∈ u, a ∈ v := by
          intro u v h a ha
          have : a ∈ u.filter fun b => decide (CaseVariant b a) := List.mem_filter.2 ⟨ha, by simp [CaseVariant.refl]⟩
          rw [h a] at this
          exact (List.mem_filter.1 this).1
        have hxy : CaseVariant x y := by
          have h1 : ¬ Precedes y x := by
            rcases List.mem_cons.1 (hmem (fun k => (h k).symm) y (by simp)) with e | hy
            · subst e
              intro hc
              rw [← caseless_lt_iff] at hc
              have := caseless_trichotomy y y
              rw [hc, (caseless_eq_iff y y).2 (CaseVariant.refl y)] at this
              simp at this
            · exact hr.1 y hy
          have h2 : ¬ Precedes x y := by
            rcases List.mem_cons.1 (hmem h x (by simp)) with e | hx
            · subst e
              intro hc
              rw [← caseless_lt_iff] at hc
              have := caseless_trichotomy x x
              rw [hc, (caseless_eq_iff x x).2 (CaseVariant.refl x)] at this
              simp at this
            · exact hs.1 x hx
          have : lt x y = false := Bool.eq_false_iff.2 fun h => h2 ((caseless_lt_iff _ _).1 h)
          exact ((lt_iff_not_le x y).1 this).resolve_left h1
        have hh := h y
        simp only [List.filter_cons, decide_eq_true hxy, decide_eq_true (CaseVariant.refl y), if_true] at hh
        injection hh with e _
        subst e
        congr 1
        refine ih s hr.2 hs.2 fun k => ?_
        have hk := h k
        simp only [List.filter_cons] at hk
        split at hk
        · injection hk
        · exact hk
  exact key r _ ho (sorted_ordered l) fun k => (hs k).trans (sorted_stable k l).symm

/-- **C104.** `cmp` agrees with the comparisons. -/
theorem cmp_agrees (a b : Str) :
    (cmp a b = .lt ↔ Precedes a b) ∧ (cmp a b = .eq ↔ CaseVariant a b) ∧ (cmp a b = .gt ↔ Precedes b a) := by
  rw [← caseless_lt_iff, ← (caseless_order_derived a b).1, ← lower_eq_iff, ← strCmp_eq_iff]
  unfold cmp lt gt
  simp

/-! ## C105: delegated methods -/

theorem variant_of_map (f : Nat → Nat) (h : ∀ c, SameLetter (f c) c) (s : Str) : CaseVariant (s.map f) s := by
  refine ⟨by simp, fun i x y hx hy => ?_⟩
  rw [List.getElem?_map, hy] at hx
  obtain rfl : f y = x := by simpa using hx
  exact h y

/-- **C105.** `lower`, `upper`, `title` and `swapcase` give case variants, so the `Caseless` of each equals the original. -/
theorem case_methods_variant (s : Str) :
    CaseVariant (lower s) s ∧ CaseVariant (upper s) s ∧ CaseVariant (title s) s ∧ CaseVariant (swapcase s) s := by
  refine ⟨variant_of_map _ (fun c => ?_) s, variant_of_map _ (fun c => ?_) s, ?_, variant_of_map _ (fun c => ?_) s⟩
  · unfold lowerCp SameLetter; split <;> omega
  · unfold asciiUpper SameLetter; split <;> omega
  · have key : ∀ (b : Bool) (s : Str), lower (titleFrom b s) = lower s := by
      intro b s
      induction s generalizing b with
      | nil => rfl
      | cons c s ih =>
        have h := ih (isAsciiAlpha c)
        unfold lower at h
        have hc : lowerCp (if b = true then asciiLower c else asciiUpper c) = lowerCp c := by
          rw [lowerCp_eq_iff]
          unfold asciiLower asciiUpper SameLetter
          split <;> split <;> omega
        simp only [titleFrom, lower, List.map_cons, h, hc]
    exact (lower_eq_iff _ _).1 (key false s)
  · unfold SameLetter
    (repeat' split) <;> omega

/-- **C105.** Which case variant each is: `lower` has no capital, `upper` no small letter, `swapcase` the other case
everywhere. -/
theorem case_methods_case (s : Str) :
    (∀ c ∈ lower s, ¬ (65 ≤ c ∧ c ≤ 90)) ∧ (∀ c ∈ upper s, ¬ (97 ≤ c ∧ c ≤ 122)) ∧
    (∀ i c : Nat, s[i]? = some c → (65 ≤ c ∧ c ≤ 90 ∨ 97 ≤ c ∧ c ≤ 122) → ∃ d, (swapcase s)[i]? = some d ∧ d ≠ c) := by
  refine ⟨fun c hc => ?_, fun c hc => ?_, fun i c hi hc => ?_⟩
  · obtain ⟨x, -, rfl⟩ := List.mem_map.1 hc
    unfold lowerCp; split <;> omega
  · obtain ⟨x, -, rfl⟩ := List.mem_map.1 hc
    unfold asciiUpper; split <;> omega
  · refine ⟨_, by simp only [swapcase, List.getElem?_map, hi, Option.map_some]; rfl, ?_⟩
    (repeat' split) <;> omega

/-- A letter of the ASCII alphabet. -/
def Letter (c : Nat) : Prop := 65 ≤ c ∧ c ≤ 90 ∨ 97 ≤ c ∧ c ≤ 122

theorem titleFrom_get (b : Bool) (s : Str) (i c : Nat) (h : (titleFrom b s)[i]? = some c) :
    ((i = 0 ∧ b = true ∨ ∃ j d, i = j + 1 ∧ s[j]? = some d ∧ Letter d) → ¬ (65 ≤ c ∧ c ≤ 90)) ∧
    (¬ (i = 0 ∧ b = true ∨ ∃ j d, i = j + 1 ∧ s[j]? = some d ∧ Letter d) → ¬ (97 ≤ c ∧ c ≤ 122)) := by
  induction s generalizing b i with
  | nil => simp [titleFrom] at h
  | cons x s ih =>
    cases i with
    | zero =>
      simp only [titleFrom, List.getElem?_cons_zero, Option.some.injEq] at h
      subst h
      cases b
      · simp only [Bool.false_eq_true, if_false, asciiUpper]
        refine ⟨?_, fun _ => by split <;> omega⟩
        rintro (⟨-, h⟩ | ⟨j, d, h, -⟩)
        · cases h
        · omega
      · simp only [if_true, asciiLower]
        exact ⟨fun _ => by split <;> omega, fun h => absurd (Or.inl ⟨trivial, trivial⟩) h⟩
    | succ i =>
      simp only [titleFrom, List.getElem?_cons_succ] at h
      have ih := ih _ _ h
      have hiff : (i = 0 ∧ isAsciiAlpha x = true ∨ ∃ j d, i = j + 1 ∧ s[j]? = some d ∧ Letter d) ↔
          (i + 1 = 0 ∧ b = true ∨ ∃ j d, i + 1 = j + 1 ∧ (x :: s)[j]? = some d ∧ Letter d) := by
        have hx : isAsciiAlpha x = true ↔ Letter x := by
          simp [isAsciiAlpha, Letter]
        constructor
        · rintro (⟨rfl, h1⟩ | ⟨j, d, rfl, h, h'⟩)
          · exact Or.inr ⟨0, x, rfl, rfl, hx.1 h1⟩
          · exact Or.inr ⟨j + 1, d, rfl, by simpa using h, h'⟩
        · rintro (⟨h, -⟩ | ⟨j, d, h, h1, h2⟩)
          · omega
          · obtain rfl : i = j := by omega
            cases i with
            | zero =>
              obtain rfl : x = d := by simpa using h1
              exact Or.inl ⟨rfl, hx.2 h2⟩
            | succ j => exact Or.inr ⟨j, d, rfl, by simpa using h1, h2⟩
      rw [hiff] at ih
      exact ih

/-- **C105.** In `title`, what follows a letter is not a capital, and what does not is not a small letter. -/
theorem title_case (s : Str) (i c : Nat) (h : (title s)[i]? = some c) :
    ((∃ j d, i = j + 1 ∧ s[j]? = some d ∧ Letter d) → ¬ (65 ≤ c ∧ c ≤ 90)) ∧
    (¬ (∃ j d, i = j + 1 ∧ s[j]? = some d ∧ Letter d) → ¬ (97 ≤ c ∧ c ≤ 122)) := by
  have := titleFrom_get false s i c h
  simpa using this

/-- **C105.** So two strings are equal up to case exactly if their upper-case forms are equal, exactly if their lower-case
forms are, and exactly if their title forms are. -/
theorem case_methods_agree (a b : Str) :
    (upper a = upper b ↔ eq a b = true) ∧ (lower a = lower b ↔ eq a b = true) ∧ (title a = title b ↔ eq a b = true) := by
  rw [caseless_eq_iff]
  have back : ∀ f : Str → Str, (∀ s, CaseVariant (f s) s) → f a = f b → CaseVariant a b := by
    intro f hf h
    exact (hf a).symm.trans (h ▸ hf b)
  refine ⟨⟨back _ fun s => (case_methods_variant s).2.1, fun h => ?_⟩, lower_eq_iff a b,
    ⟨back _ fun s => (case_methods_variant s).2.2.1, fun h => ?_⟩⟩
  · have hu : ∀ s, upper s = (lower s).map asciiUpper := fun s => by
      unfold upper lower
      rw [List.map_map]
      refine List.map_congr_left fun c _ => ?_
      simp only [Function.comp, lowerCp, asciiUpper]
      (repeat' split) <;> omega
    rw [hu a, hu b, (lower_eq_iff a b).2 h]
  · have ht : ∀ (p : Bool) (s : Str), titleFrom p s = titleFrom p (lower s) := by
      intro p s
      induction s generalizing p with
      | nil => rfl
      | cons c s ih =>
        have h1 : isAsciiAlpha (lowerCp c) = isAsciiAlpha c := by
          rw [Bool.eq_iff_iff]
          simp only [isAsciiAlpha, lowerCp, Bool.or_eq_true, Bool.and_eq_true, decide_eq_true_eq]
          by_cases h : 65 ≤ c ∧ c ≤ 90
          · simp only [if_pos h, decide_eq_true_eq]; omega
          · simp only [if_neg h, decide_eq_true_eq]
        have h2 : asciiLower (lowerCp c) = asciiLower c := by
          simp only [asciiLower, lowerCp]; (repeat' split) <;> omega
        have h3 : asciiUpper (lowerCp c) = asciiUpper c := by
          simp only [asciiUpper, lowerCp]; (repeat' split) <;> omega
        have hl : lower (c :: s) = lowerCp c :: lower s := rfl
        rw [hl, titleFrom, titleFrom, h1, h2, h3, ih]
    unfold title asciiTitle
    rw [ht false a, ht false b, (lower_eq_iff a b).2 h]

/-- **C105.** `swapcase` twice is the original. -/
theorem swapcase_twice (s : Str) : swapcase (swapcase s) = s := by
  unfold swapcase
  rw [List.map_map]
  calc s.map _ = s.map id := List.map_congr_left fun c _ => by
        simp only [Function.comp, id]
        by_cases h1 : 65 ≤ c ∧ c ≤ 90
        · rw [if_pos h1, if_neg (by omega), if_pos (by omega)]
          omega
        · rw [if_neg h1]
          by_cases h2 : 97 ≤ c ∧ c ≤ 122
          · rw [if_pos h2, if_pos (by omega)]
            omega
          · rw [if_neg h2, if_neg h1, if_neg h2]
    _ = s := List.map_id s

/-- **C105.** Iterating gives what indexing gives, position by position, and `len` counts it. -/
theorem iter_getItem (s : Str) :
    (iter s).length = len s ∧ (∀ i : Nat, i < len s → ∃ c, getItem s i = .ok c ∧ (iter s)[i]? = some c ∧
      getItem s ((i : Int) - len s) = .ok c) ∧
    ∀ i : Int, (i < -(len s : Int) ∨ (len s : Int) ≤ i) → getItem s i = .error .indexError := by
  refine ⟨rfl, fun i hi => ?_, fun i hi => ?_⟩
  · unfold len at hi
    have hg : s[i]? = some s[i] := List.getElem?_eq_getElem hi
    refine ⟨s[i], ?_, hg, ?_⟩
    · unfold getItem listGet
      have h1 : ¬ ((i : Int) < 0) := by omega
      simp only [h1, if_false, Int.toNat_natCast, hg]
    · unfold getItem listGet len
      have h1 : (i : Int) - s.length < 0 := by omega
      have h2 : ¬ ((i : Int) - s.length + s.length < 0) := by omega
      have h3 : ((i : Int) - s.length + s.length).toNat = i := by omega
      simp only [h1, if_true, h2, if_false, h3, hg]
  · unfold len at hi
    unfold getItem listGet
    by_cases h : i < 0
    · have : i + s.length < 0 := by omega
      simp only [h, if_true, this]
    · have hn : s[i.toNat]? = none := List.getElem?_eq_none (by omega)
      simp only [h, if_false, hn]

theorem getSlice_nat (s : Str) (i n : Nat) (h : i + n ≤ s.length) :
    getSlice s (some (i : Int)) (some ((i + n : Nat) : Int)) = (s.drop i).take n := by
  unfold getSlice adjustBound
  have h1 : ¬ ((i : Int) < 0) := by omega
  have h2 : ¬ (((i + n : Nat) : Int) < 0) := by omega
  simp only [h1, h2, if_false]
  have h3 : (min (i : Int) s.length).toNat = i := by omega
  have h4 : (min ((i + n : Nat) : Int) s.length - min (i : Int) s.length).toNat = n := by omega
  rw [h3, h4]

/-- **C105.** What is found is there: at the position `find` returns, the slice as long as the substring is a case variant of
it.  The same holds of `rfind`. -/
theorem found_slice (s sub : Str) (start stop : Option Int) (p : Nat)
    (h : find s sub start stop = p ∨ rfind s sub start stop = p) :
    CaseVariant (getSlice s (some (p : Int)) (some ((p + len sub : Nat) : Int))) sub := by
  have ho : OccursIn s sub start stop p := by
    rcases h with h | h
    · rcases caseless_find s sub start stop with ⟨h1, -⟩ | ⟨q, h1, h2, -⟩
      · omega
      · obtain rfl : p = q := by omega
        exact h2
    · rcases caseless_rfind s sub start stop with ⟨h1, -⟩ | ⟨q, h1, h2, -⟩
      · omega
      · obtain rfl : p = q := by omega
        exact h2
  obtain ⟨hocc, hlo, hhi⟩ := ho
  have hle : p + sub.length ≤ s.length := by
    have : windowStop s.length stop ≤ s.length := by
      unfold windowStop
      cases stop with
      | none => simp
      | some x => simp only; split <;> omega
    omega
  rw [len, getSlice_nat s p sub.length hle]
  refine ⟨by simp; omega, fun i x y hx hy => ?_⟩
  have hi : i < sub.length := (List.getElem?_eq_some_iff.1 hy).1
  obtain ⟨z, hz, hs⟩ := hocc i y hy
  rw [List.getElem?_take_of_lt hi, List.getElem?_drop, hz] at hx
  obtain rfl : z = x := by simpa using hx
  exact hs

/-- **C105.** A string starts (ends) with each of its initial (final) slices in whatever case. -/
theorem slice_affix (s : Str) (i : Nat) (h : i ≤ len s) :
    startswith s (.one (upper (getSlice s none (some (i : Int))))) none none = true ∧
    endswith s (.one (upper (getSlice s (some (i : Int)) none))) none none = true := by
  unfold len at h
  have e1 : getSlice s none (some (i : Int)) = s.take i := by
    have := getSlice_nat s 0 i (by omega)
    simpa [getSlice, adjustBound] using this
  have e2 : getSlice s (some (i : Int)) none = s.drop i := by
    unfold getSlice adjustBound
    have h1 : ¬ ((i : Int) < 0) := by omega
    have h3 : (min (i : Int) s.length).toNat = i := by omega
    simp only [h1, if_false, h3]
    exact List.take_of_length_le (by simp; omega)
  rw [e1, e2]
  have hl : ∀ t : Str, lower (upper t) = lower t := fun t => (lower_eq_iff _ _).2 (case_methods_variant t).2.1
  have hml : ∀ (t : Str) (j : Nat), lower (t.drop j) = (lower t).drop j := fun t j => List.map_drop
  have hmt : ∀ (t : Str) (j : Nat), lower (t.take j) = (lower t).take j := fun t j => List.map_take
  constructor
  · simp only [startswith, hl, strStartsWith, adjustIndices, hmt, matchAt, lower_length, List.length_take, Bool.and_eq_true,
      decide_eq_true_eq, beq_iff_eq, Int.toNat_zero, Int.toNat_natCast, List.drop_zero]
    exact ⟨by omega, by rw [Nat.min_eq_left h]⟩
  · simp only [endswith, hl, strEndsWith, adjustIndices, hml, matchAt, lower_length, List.length_drop, Bool.and_eq_true,
      decide_eq_true_eq, beq_iff_eq, Int.toNat_zero, Int.toNat_natCast]
    refine ⟨by omega, ?_⟩
    have : s.length - (s.length - i) = i := by omega
    rw [this]
    exact List.take_of_length_le (by simp [lower_length])

/-- **C105 is false of text beyond ASCII**: the upper-case form of `'ß'` is `'SS'`, which is not equal to it up to case. -/
theorem upper_unicode_fails : upperU [0xDF] = [83, 83] ∧ lowerU (upperU [0xDF]) ≠ lowerU [0xDF] := by decide

/-! ## Examples -/

/-- A search that meets the entries in order and hashes everything to 0. -/
def Search.plain : Search := ⟨fun _ => 0, fun _ => 0, fun t _ => t, fun _ _ => List.Perm.refl _⟩

/-- `d = {}; d['AB'] = 1; d['c'] = 2; d['aB'] = 3; d['Ab']; del d['C']; d['c']`, all `Caseless`. -/
example : drun .plain [] ([KOp.set [65, 66] 1, .set [99] 2, .set [97, 66] 3, .get [65, 98], .del [67], .get [99]].map KOp.op) =
    ([(.caseless [65, 66], 3)], [.ok none, .ok none, .ok none, .ok (some 3), .ok none, .error .keyError]) := by decide +kernel

/-- `sorted(['FOO', 'bar', 'foo', 'Bar'], key=Caseless) == ['bar', 'Bar', 'FOO', 'foo']` -/
example : sortedKey [[70, 79, 79], [98, 97, 114], [102, 111, 111], [66, 97, 114]] =
    [[98, 97, 114], [66, 97, 114], [70, 79, 79], [102, 111, 111]] := by decide +kernel

/-- `Caseless("it's A").title() == "It'S A"` and `.swapcase() == "IT'S a"` -/
example : title [105, 116, 39, 115, 32, 65] = [73, 116, 39, 83, 32, 65] ∧
    swapcase [105, 116, 39, 115, 32, 65] = [73, 84, 39, 83, 32, 97] := by decide

/-- `s = Caseless('Eggs and Spam'); s[s.find('spam'):][:4] == 'Spam'` -/
example : getSlice [69, 103, 103, 115, 32, 97, 110, 100, 32, 83, 112, 97, 109]
    (some (find [69, 103, 103, 115, 32, 97, 110, 100, 32, 83, 112, 97, 109] [115, 112, 97, 109] none none)) (some 13) =
    [83, 112, 97, 109] := by decide +kernel

end Verif.Caseless
