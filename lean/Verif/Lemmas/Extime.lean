import Verif.Model.Extime
/-! Lemmas about `Time` arithmetic, comparison and zones. -/
namespace Verif.Extime
open Verif.Py

theorem fields_lt_toUs {a b : DT} (ha : a.Valid) (hb : b.Valid) (h : DT.fields a < DT.fields b) : a.toUs < b.toUs := by
  obtain ⟨⟨a1, a2, a3, a4, a5⟩, a6, a7, a8, a9, a10⟩ := ha
  obtain ⟨⟨b1, b2, b3, b4, b5⟩, b6, b7, b8, b9, b10⟩ := hb
  unfold daysInMonth at a5 b5
  have hda := dayOfYear_le (isLeap a.year) a.month a.day a2 a3 a5
  have hdb := dayOfYear_le (isLeap b.year) b.month b.day b2 b3 b5
  simp only [DT.fields, List.cons_lt_cons_iff] at h
  unfold DT.toUs DT.ord ymd2ord
  rcases h with h | ⟨e1, h⟩
  · have := beforeYear_mono _ _ a1 h; omega
  · rw [e1] at a5 ⊢
    rcases h with h | ⟨e2, h⟩
    · have := beforeMonth_mono (isLeap b.year) _ _ a2 h b3; omega
    · rw [e2]
      rcases h with h | ⟨e3, h⟩
      · omega
      · rw [e3]
        rcases h with h | ⟨e4, h⟩
        · omega
        · rcases h with h | ⟨e5, h⟩
          · omega
          · rcases h with h | ⟨e6, h⟩
            · omega
            · rcases h with h | ⟨e7, h⟩
              · omega
              · exact absurd h (List.not_lt_nil _)

theorem fields_inj {a b : DT} (h : DT.fields a = DT.fields b) : a = b := by
  cases a; cases b; simp_all [DT.fields]

theorem dtLt_iff {a b : DT} (ha : a.Valid) (hb : b.Valid) : dtLt a b = true ↔ a.toUs < b.toUs := by
  unfold dtLt
  rw [decide_eq_true_iff]
  constructor
  · exact fields_lt_toUs ha hb
  · intro h
    by_contra hc
    rcases lt_or_eq_of_le (not_lt.1 hc) with h' | h'
    · have := fields_lt_toUs hb ha h'; omega
    · have := fields_inj h'; subst this; omega

theorem dtLt_eq {a b : DT} (ha : a.Valid) (hb : b.Valid) : dtLt a b = decide (a.toUs < b.toUs) := by
  rw [Bool.eq_iff_iff, dtLt_iff ha hb, decide_eq_true_iff]

theorem dtCmp_zero {a b : DT} (ha : a.Valid) (hb : b.Valid) : dtCmp a b = 0 ↔ a.toUs = b.toUs := by
  unfold dtCmp
  rw [dtLt_eq ha hb, dtLt_eq hb ha]
  by_cases h1 : a.toUs < b.toUs <;> by_cases h2 : b.toUs < a.toUs <;> simp [h1, h2] <;> omega

theorem dtCmp_neg {a b : DT} (ha : a.Valid) (hb : b.Valid) : dtCmp a b < 0 ↔ a.toUs < b.toUs := by
  unfold dtCmp
  rw [dtLt_eq ha hb, dtLt_eq hb ha]
  by_cases h1 : a.toUs < b.toUs <;> by_cases h2 : b.toUs < a.toUs <;> simp [h1, h2] <;> omega

theorem dtCmp_pos {a b : DT} (ha : a.Valid) (hb : b.Valid) : dtCmp a b > 0 ↔ b.toUs < a.toUs := by
  unfold dtCmp
  rw [dtLt_eq ha hb, dtLt_eq hb ha]
  by_cases h1 : a.toUs < b.toUs <;> by_cases h2 : b.toUs < a.toUs <;> simp [h1, h2] <;> omega

theorem utc_offset : utc.offset = .ok 0 := by decide

theorem Tz.offset_ok {z : Tz} {o : Int} (h : z.offset = .ok o) : o = z.minutes * 60000000 ∧ -1440 < z.minutes ∧ z.minutes < 1440 := by
  unfold Tz.offset at h
  split at h
  · rename_i hz; cases h; exact ⟨rfl, hz.1, hz.2⟩
  · cases h

theorem add_zero_valid {t : DT} (h : t.Valid) : t.add 0 = .ok t := (DT.add_iff h).2 (by omega)

/-- Shifting between zones, when it works. -/
theorem astimezone_ok {dt dt' : DT} {src dst : Tz} (h : astimezone dt src dst = .ok dt') :
    ∃ o o', src.offset = .ok o ∧ dst.offset = .ok o' ∧ dt'.Valid ∧ dt'.toUs - o' = dt.toUs - o ∧
      0 ≤ dt.toUs - o ∧ dt.toUs - o < maxUs := by
  unfold astimezone at h
  cases h1 : src.offset with
  | error e => rw [h1] at h; cases h
  | ok o =>
    rw [h1] at h
    simp only at h
    cases h2 : dt.add (-o) with
    | error e => rw [h2] at h; cases h
    | ok u =>
      rw [h2] at h
      simp only at h
      cases h3 : dst.offset with
      | error e => rw [h3] at h; cases h
      | ok o' =>
        rw [h3] at h
        simp only at h
        obtain ⟨v1, v2⟩ := DT.add_ok h2
        obtain ⟨w1, w2⟩ := DT.add_ok h
        have := DT.toUs_range v1
        exact ⟨o, o', rfl, rfl, w1, by omega, by omega, by omega⟩

/-- …and it works exactly when the instant and the local time are representable. -/
theorem astimezone_iff {dt dt' : DT} {src dst : Tz} {o o' : Int} (hs : src.offset = .ok o) (hd : dst.offset = .ok o')
    (h' : dt'.Valid) : astimezone dt src dst = .ok dt' ↔
      dt'.toUs = dt.toUs - o + o' ∧ 0 ≤ dt.toUs - o ∧ dt.toUs - o < maxUs := by
  constructor
  · intro h
    obtain ⟨p, p', e1, e2, -, e4, e5, e6⟩ := astimezone_ok h
    rw [hs] at e1; rw [hd] at e2; cases e1; cases e2
    exact ⟨by omega, e5, e6⟩
  · rintro ⟨h1, h2, h3⟩
    unfold astimezone
    rw [hs]
    simp only
    obtain ⟨u, hu⟩ := (DT.add_total dt (-o)).2 (by omega)
    rw [hu, hd]
    simp only
    have := (DT.add_ok hu).2
    exact (DT.add_iff h').2 (by omega)

theorem astimezone_utc {dt : DT} (h : dt.Valid) : astimezone dt utc utc = .ok dt := by
  have := DT.toUs_range h
  exact (astimezone_iff utc_offset utc_offset h).2 ⟨by omega, by omega, by omega⟩

/-- `astimezone` between good zones fails only with `OverflowError`. -/
theorem astimezone_total {dt : DT} {src dst : Tz} {o o' : Int} (hs : src.offset = .ok o) (hd : dst.offset = .ok o')
    (h1 : 0 ≤ dt.toUs - o ∧ dt.toUs - o < maxUs) (h2 : 0 ≤ dt.toUs - o + o' ∧ dt.toUs - o + o' < maxUs) :
    astimezone dt src dst = .ok (DT.ofUs (dt.toUs - o + o')) :=
  (astimezone_iff hs hd (DT.ofUs_valid h2.1 h2.2)).2 ⟨DT.toUs_ofUs h2.1, h1.1, h1.2⟩

theorem astimezone_err {dt : DT} {src dst : Tz} {o o' : Int} (hs : src.offset = .ok o) (hd : dst.offset = .ok o')
    {e : PyErr} (h : astimezone dt src dst = .error e) : e = .overflowError := by
  unfold astimezone at h
  rw [hs, hd] at h
  simp only at h
  cases h2 : dt.add (-o) with
  | error e' => rw [h2] at h; cases h; exact (DT.add_err h2).1
  | ok u => rw [h2] at h; exact (DT.add_err h).1

end Verif.Extime
