import Verif.Spec.RawMain
import Verif.Props.RawA1
import Verif.Props.RawText
import Verif.Props.RawFilter

/-! Helper lemmas for `Verif/Props/RawMain.lean`. -/
namespace Fp
open Spec

theorem bytesText_ascii (cs : List Char) (h : ∀ c ∈ cs, c.toNat < 128 ∧ c ≠ '\r') :
    bytesText (cs.map fun c => UInt8.ofNat c.toNat) = .ok cs := by
  have hb : ∀ c ∈ cs, (UInt8.ofNat c.toNat).toNat = c.toNat := by
    intro c hc
    have := (h c hc).1
    rw [UInt8.toNat_ofNat']
    omega
  unfold bytesText
  rw [if_pos]
  · congr 1
    rw [List.map_map]
    have e1 : cs.map ((fun x : UInt8 => Char.ofNat x.toNat) ∘ fun c => UInt8.ofNat c.toNat) = cs := by
      conv_rhs => rw [← List.map_id cs]
      apply List.map_congr_left
      intro c hc
      simp only [Function.comp, hb c hc, id]
      exact Char.ofNat_toNat c
    rw [e1]
    clear e1 hb
    induction cs with
    | nil => rfl
    | cons c cs ih =>
      have hc := (h c (by simp)).2
      rw [universalNl]
      · rw [ih (fun x hx => h x (by simp [hx]))]
      · rintro cs' rfl; exact absurd rfl hc
      · rintro rfl; exact absurd rfl hc
  · rw [List.all_eq_true]
    intro x hx
    obtain ⟨c, hc, rfl⟩ := List.mem_map.mp hx
    rw [hb c hc]
    exact decide_eq_true (h c hc).1

theorem hexPad_ascii (w n : Nat) : ∀ c ∈ hexPad w n, c.toNat < 128 ∧ c ≠ '\r' := by
  rw [hexPad_eq]
  intro c hc
  obtain ⟨d, hd, rfl⟩ := List.mem_map.mp hc
  have h16 := padDigs_lt w n d hd
  have table : ∀ d : Fin 16, (hexChar d.val).toNat < 128 ∧ hexChar d.val ≠ '\r' := by decide +kernel
  exact table ⟨d, h16⟩

theorem a0_ascii (raws : List (Nat × Nat)) : ∀ c ∈ raws.flatMap a0Event, c.toNat < 128 ∧ c ≠ '\r' := by
  intro c hc
  obtain ⟨r, _, hc⟩ := List.mem_flatMap.mp hc
  unfold a0Event at hc
  simp only [List.mem_append, List.mem_singleton] at hc
  rcases hc with (hc | rfl) | hc | rfl
  · exact hexPad_ascii _ _ c hc
  · decide
  · exact hexPad_ascii _ _ c hc
  · decide

theorem a2_ascii (raws : List (Nat × Nat)) : ∀ c ∈ raws.flatMap a2Event, c.toNat < 128 ∧ c ≠ '\r' := by
  intro c hc
  obtain ⟨r, _, hc⟩ := List.mem_flatMap.mp hc
  unfold a2Event at hc
  simp only [List.mem_append, List.mem_singleton] at hc
  rcases hc with hc | rfl
  · exact hexPad_ascii _ _ c hc
  · decide

theorem raw_events (raws : List (Nat × Nat)) (hv : ∀ r ∈ raws, Valid r) :
    List.Forall₂ (fun (e : Num × Nat) (r : Nat × Nat) => e.1.val = timeIn .ps4 r.1 ∧ e.2 = r.2 ∧ Valid r)
      (raws.map fun r => (Num.u64 r.1, r.2)) raws := by
  induction raws with
  | nil => exact .nil
  | cons r raws ih =>
    refine .cons ⟨?_, rfl, hv r (by simp)⟩ (ih fun x hx => hv x (by simp [hx]))
    simp [Num.val, timeIn, Tsres.value]

theorem readValue_homogeneous (res : Tsres) (frac : Bool) (raws : List (Nat × Nat)) :
    Homogeneous ((raws.map fun r => (readValue res frac r.1, r.2)).map Prod.fst) := by
  rw [List.map_map]
  cases frac
  · left; intro x hx; obtain ⟨r, _, rfl⟩ := List.mem_map.mp hx; exact ⟨_, rfl⟩
  · right; intro x hx; obtain ⟨r, _, rfl⟩ := List.mem_map.mp hx; exact ⟨_, rfl⟩

theorem a1Event_length (legacy : Bool) (r : Nat × Nat) : (a1Event legacy r).length = 8 := by
  unfold a1Event
  cases legacy <;> simp

theorem sreadFmt_file (fw : Nat) (hfw : 54 ≤ fw) (fmt : Fmt) (legacy : Bool) (res : Tsres) (frac : Bool) (bufferSize : Nat)
    (hb : 0 < bufferSize) (raws : List (Nat × Nat)) (hv : ∀ r ∈ raws, Valid r) (hr : Representable fmt raws) :
    ∃ evs, evs.map (fun (e : Num × Nat) => (e.1.val, e.2)) = raws.map (fun r => ((readValue res frac r.1).val, r.2)) ∧
      Homogeneous (evs.map Prod.fst) ∧
      (sreadFmt fw fmt legacy res frac bufferSize (fileOf fmt legacy raws)).1.flatten = evs ∧
      (sreadFmt fw fmt legacy res frac bufferSize (fileOf fmt legacy raws)).2 = none := by
  have hev := raw_events raws hv
  cases fmt with
  | a1 =>
    have h8 : (raws.flatMap (a1Event legacy)).length % 8 = 0 := by
      rw [flatMap_length_const _ 8 (a1Event_length legacy)]; omega
    obtain ⟨evs, h1, h2, h3, -⟩ := C04_stream_partial fw legacy res frac bufferSize hb (raws.flatMap (a1Event legacy)) h8
    rw [C03_modes_exact fw hfw legacy res frac raws hv] at h1
    injection h1 with h1
    subst h1
    refine ⟨_, ?_, readValue_homogeneous res frac raws, h2.1, h3⟩
    rw [List.map_map]; rfl
  | a0 =>
    obtain ⟨evs, h1, h2, h3, h4, -⟩ := C08_sread_a0_partial fw hfw .ps4 res frac bufferSize hb _ raws hev hr
    rw [C05_a0_file fw hfw .ps4 _ raws hev] at h3 h4
    refine ⟨evs, h1, h2, ?_, ?_⟩
    · simp only [sreadFmt, fileOf, bytesText_ascii _ (a0_ascii raws)]; exact h3.1
    · simp only [sreadFmt, fileOf, bytesText_ascii _ (a0_ascii raws)]; exact h4
  | a2 =>
    obtain ⟨h3, h4, -⟩ := C08_sread_a2_partial fw hfw .ps4 res frac bufferSize hb _ raws hev hr
    rw [C06_a2_file fw hfw .ps4 _ raws hev] at h3 h4
    refine ⟨_, ?_, readValue_homogeneous res frac raws, ?_, ?_⟩
    · rw [List.map_map]; rfl
    · simp only [sreadFmt, fileOf, bytesText_ascii _ (a2_ascii raws)]; exact h3.1
    · simp only [sreadFmt, fileOf, bytesText_ascii _ (a2_ascii raws)]; exact h4

theorem readFmt_file (fw : Nat) (hfw : 54 ≤ fw) (fmt : Fmt) (legacy : Bool) (res : Tsres) (frac : Bool)
    (raws : List (Nat × Nat)) (hv : ∀ r ∈ raws, Valid r) (hr : Representable fmt raws) (hlen : fewest fmt ≤ raws.length) :
    ∃ evs, evs.map (fun (e : Num × Nat) => (e.1.val, e.2)) = raws.map (fun r => ((readValue res frac r.1).val, r.2)) ∧
      Homogeneous (evs.map Prod.fst) ∧
      readFmt fw fmt legacy res frac (fileOf fmt legacy raws) = .ok evs := by
  have hev := raw_events raws hv
  cases fmt with
  | a1 =>
    refine ⟨_, ?_, readValue_homogeneous res frac raws, C03_modes_exact fw hfw legacy res frac raws hv⟩
    rw [List.map_map]; rfl
  | a0 =>
    obtain ⟨evs, h1, h2, h3⟩ := C05_a0_roundtrip_partial fw hfw .ps4 res frac _ raws (by
      rintro rfl; simp [fewest] at hlen) hev hr
    rw [C05_a0_file fw hfw .ps4 _ raws hev] at h1
    refine ⟨evs, h2, h3, ?_⟩
    simp only [readFmt, fileOf, bytesText_ascii _ (a0_ascii raws)]
    exact h1
  | a2 =>
    have h1 := C06_a2_roundtrip_partial fw hfw .ps4 res frac _ raws hlen hev hr
    rw [C06_a2_file fw hfw .ps4 _ raws hev] at h1
    refine ⟨_, ?_, readValue_homogeneous res frac raws, ?_⟩
    · rw [List.map_map]; rfl
    · simp only [readFmt, fileOf, bytesText_ascii _ (a2_ascii raws)]
      exact h1

/-- Batches filtered one by one. -/
theorem filter_batches (a : FilterArgs) (res : Tsres) (stream : List (List (Num × Nat)))
    (hp : ∀ e ∈ stream.flatten, e.2 < 16) (hpat : ∀ pat, a.pattern = some pat → pat < 16)
    (hh : Homogeneous (stream.flatten.map Prod.fst)) (hs : Timed a → Chronological (stream.flatten.map Prod.fst)) :
    (stream.map (filterBatch a res)).flatten = (stream.flatten.filter (keepEvent a res)).map (outEvent a) := by
  induction stream with
  | nil => rfl
  | cons b stream ih =>
    have s1 : b.Sublist (b :: stream).flatten := by rw [List.flatten_cons]; exact List.sublist_append_left _ _
    have s2 : stream.flatten.Sublist (b :: stream).flatten := by rw [List.flatten_cons]; exact List.sublist_append_right _ _
    rw [List.map_cons, List.flatten_cons, List.flatten_cons, List.filter_append, List.map_append,
      filterBatch_eq a res b (fun e he => hp e (s1.subset he)) hpat (homogeneous_sub hh (s1.map _))
        (fun h => (hs h).sublist (s1.map _)),
      ih (fun e he => hp e (s2.subset he)) (homogeneous_sub hh (s2.map _)) (fun h => (hs h).sublist (s2.map _))]

/-- The filter on events that carry the given raw times. -/
theorem filter_raws (a : FilterArgs) (res : Tsres) (frac : Bool)
    (hm : (res = .ps4 ∧ frac = false) ∨ (res = .ns1 ∧ frac = true)) (evs : List (Num × Nat)) (raws : List (Nat × Nat))
    (hval : evs.map (fun (e : Num × Nat) => (e.1.val, e.2)) = raws.map (fun r => ((readValue res frac r.1).val, r.2)))
    (hcmp : Timed a → ∀ e ∈ evs, e.1.cmp = e.1.val) :
    ((evs.filter (keepEvent a res)).map (outEvent a)).map (fun (e : Num × Nat) => (e.1.val, e.2)) =
      (filtered a raws).map (fun r => ((readValue res frac r.1).val, r.2)) := by
  have hrv : ∀ t : Nat, (readValue res frac t).val = timeIn res t := by
    intro t
    rcases hm with ⟨rfl, rfl⟩ | ⟨rfl, rfl⟩
    · have : timeIn .ps4 t = (t : ℚ) := by simp [timeIn, Tsres.value]
      simp only [readValue, Bool.false_eq_true, if_false, Num.val, this]
      simp
    · rfl
  have hwin : ∀ t : Nat, InWindow res a.start a.stop (timeIn res t) ↔ InWindow .ps4 a.start a.stop (t : ℚ) := by
    intro t
    rcases hm with ⟨rfl, rfl⟩ | ⟨rfl, rfl⟩
    · have : timeIn .ps4 t = (t : ℚ) := by simp [timeIn, Tsres.value]
      rw [this]
    · rw [inWindow_scale]
      have : timeIn .ns1 t = (t : ℚ) / 256 := by simp [timeIn, Tsres.value]
      rw [this]
  induction evs generalizing raws with
  | nil =>
    cases raws with
    | nil => rfl
    | cons r raws => simp at hval
  | cons e evs ih =>
    cases raws with
    | nil => simp at hval
    | cons r raws =>
      simp only [List.map_cons, List.cons.injEq, Prod.mk.injEq] at hval
      obtain ⟨⟨h1, h2⟩, h3⟩ := hval
      have ih' := ih raws h3 (fun h x hx => hcmp h x (by simp [hx]))
      have hk : keepEvent a res e = passes a r := by
        unfold keepEvent passes
        rw [h2]
        congr 1
        rw [decide_eq_decide]
        by_cases ht : Timed a
        · rw [hcmp ht e (by simp), h1, hrv, hwin]
        · unfold Timed at ht
          simp only [not_or, Option.not_isSome_iff_eq_none] at ht
          simp [InWindow, ht.1, ht.2]
      unfold filtered at ih' ⊢
      rw [List.filter_cons, List.filter_cons, ← hk]
      by_cases hke : keepEvent a res e = true
      · rw [if_pos hke, if_pos hke, List.map_cons, List.map_cons, List.map_cons, List.map_cons, ih']
        congr 1
        simp only [outEvent, h1, h2]
        rfl
      · rw [if_neg hke, if_neg hke]
        exact ih'

theorem filtered_valid (a : FilterArgs) (raws : List (Nat × Nat)) (hv : ∀ r ∈ raws, Valid r) :
    ∀ r ∈ filtered a raws, Valid r := by
  intro r hr
  obtain ⟨x, hx, rfl⟩ := List.mem_map.mp hr
  have := hv x (List.mem_of_mem_filter hx)
  refine ⟨this.1, ?_⟩
  unfold leftBits
  cases a.pattern with
  | none => exact this.2
  | some pat => simp only [ofBits4]; split_ifs <;> omega

/-- Writing events that carry the given raw times. -/
theorem writeFmt_raws (fw : Nat) (hfw : 54 ≤ fw) (fmt : Fmt) (legacy : Bool) (res : Tsres) (frac : Bool)
    (hm : (res = .ps4 ∧ frac = false) ∨ (res = .ns1 ∧ frac = true)) (evs : List (Num × Nat)) (raws : List (Nat × Nat))
    (hv : ∀ r ∈ raws, Valid r)
    (hval : evs.map (fun (e : Num × Nat) => (e.1.val, e.2)) = raws.map (fun r => ((readValue res frac r.1).val, r.2))) :
    writeFmt fw fmt legacy res evs = fileOf fmt legacy raws := by
  have h : List.Forall₂ (fun (e : Num × Nat) (r : Nat × Nat) => e.1.val = timeIn res r.1 ∧ e.2 = r.2 ∧ Valid r) evs raws := by
    have hrv : ∀ t : Nat, (readValue res frac t).val = timeIn res t := by
      intro t
      rcases hm with ⟨rfl, rfl⟩ | ⟨rfl, rfl⟩
      · have : timeIn .ps4 t = (t : ℚ) := by simp [timeIn, Tsres.value]
        simp only [readValue, Bool.false_eq_true, if_false, Num.val, this]
        simp
      · rfl
    induction evs generalizing raws with
    | nil =>
      cases raws with
      | nil => exact .nil
      | cons r raws => simp at hval
    | cons e evs ih =>
      cases raws with
      | nil => simp at hval
      | cons r raws =>
        simp only [List.map_cons, List.cons.injEq, Prod.mk.injEq] at hval
        obtain ⟨⟨h1, h2⟩, h3⟩ := hval
        exact .cons ⟨h1.trans (hrv _), h2, hv r (by simp)⟩ (ih raws (fun x hx => hv x (by simp [hx])) h3)
  cases fmt with
  | a0 => simp only [writeFmt, fileOf, textBytes, C05_a0_file fw hfw res evs raws h]
  | a1 => simp only [writeFmt, fileOf, C01_a1_file fw hfw legacy res evs raws h]
  | a2 => simp only [writeFmt, fileOf, textBytes, C06_a2_file fw hfw res evs raws h]

theorem swriteFmt_flatten (fw : Nat) (fmt : Fmt) (legacy : Bool) (res : Tsres) (stream : List (List (Num × Nat))) :
    swriteFmt fw fmt legacy res stream = writeFmt fw fmt legacy res stream.flatten := by
  cases fmt with
  | a0 => simp only [swriteFmt, writeFmt, C07_swrite_a0]
  | a1 => simp only [swriteFmt, writeFmt, C07_swrite_a1]
  | a2 => simp only [swriteFmt, writeFmt, C07_swrite_a2]

theorem chronological_raws (evs : List (Num × Nat)) (raws : List (Nat × Nat)) (res : Tsres) (frac : Bool)
    (hval : evs.map (fun (e : Num × Nat) => (e.1.val, e.2)) = raws.map (fun r => ((readValue res frac r.1).val, r.2)))
    (hs : raws.Pairwise (fun x y => x.1 ≤ y.1)) : Chronological (evs.map Prod.fst) := by
  have hmono : ∀ s t : Nat, s ≤ t → (readValue res frac s).val ≤ (readValue res frac t).val := by
    intro s t hst
    have h1 : timeIn res s ≤ timeIn res t := by
      unfold timeIn
      have : (s : ℚ) ≤ t := by exact_mod_cast hst
      have h0 : (0 : ℚ) ≤ res.value := by positivity
      exact div_le_div_of_nonneg_right (mul_le_mul_of_nonneg_right this h0) (by norm_num)
    cases frac
    · simp only [readValue, Bool.false_eq_true, if_false, Num.val]
      exact_mod_cast Int.toNat_le_toNat (Int.floor_le_floor h1)
    · exact h1
  unfold Chronological
  rw [List.pairwise_map]
  have e1 : (evs.map (fun (e : Num × Nat) => (e.1.val, e.2))).Pairwise (fun x y => x.1 ≤ y.1) := by
    rw [hval, List.pairwise_map]
    exact hs.imp (fun h => hmono _ _ h)
  rw [List.pairwise_map] at e1
  exact e1

theorem patterns_lt (evs : List (Num × Nat)) (raws : List (Nat × Nat)) (f : Nat → ℚ) (hv : ∀ r ∈ raws, Valid r)
    (hval : evs.map (fun (e : Num × Nat) => (e.1.val, e.2)) = raws.map (fun r => (f r.1, r.2))) :
    ∀ e ∈ evs, e.2 < 16 := by
  intro e he
  have : (e.1.val, e.2) ∈ raws.map (fun r => (f r.1, r.2)) := by
    rw [← hval]; exact List.mem_map.mpr ⟨e, he, rfl⟩
  obtain ⟨r, hr, h⟩ := List.mem_map.mp this
  have := (hv r hr).2
  simp only [Prod.mk.injEq] at h
  omega

theorem cmp_val (evs : List (Num × Nat)) (raws : List (Nat × Nat))
    (hval : evs.map (fun (e : Num × Nat) => (e.1.val, e.2)) = raws.map (fun r => ((readValue .ps4 false r.1).val, r.2)))
    (h53 : ∀ r ∈ raws, r.1 < 2 ^ 53) : ∀ e ∈ evs, e.1.cmp = e.1.val := by
  intro e he
  apply cmp_eq_val
  intro n hn
  have : (e.1.val, e.2) ∈ raws.map (fun r => ((readValue .ps4 false r.1).val, r.2)) := by
    rw [← hval]; exact List.mem_map.mpr ⟨e, he, rfl⟩
  obtain ⟨r, hr, h⟩ := List.mem_map.mp this
  simp only [Prod.mk.injEq, hn, Num.val, readValue, Bool.false_eq_true, if_false, timeIn, Tsres.value] at h
  have h1 := h53 r hr
  have h2 : ((r.1 : ℚ) * ((256 : Nat) : ℚ) / 256) = (r.1 : ℚ) := by norm_num
  rw [h2, Int.floor_natCast] at h
  have h3 : r.1 = n := by exact_mod_cast h.1
  omega

theorem cmp_val_ns1 (evs : List (Num × Nat)) (raws : List (Nat × Nat)) (hh : Homogeneous (evs.map Prod.fst))
    (hval : evs.map (fun (e : Num × Nat) => (e.1.val, e.2)) = raws.map (fun r => ((readValue .ns1 true r.1).val, r.2)))
    (hv : ∀ r ∈ raws, Valid r) : ∀ e ∈ evs, e.1.cmp = e.1.val := by
  intro e he
  apply cmp_eq_val
  intro n hn
  have : (e.1.val, e.2) ∈ raws.map (fun r => ((readValue .ns1 true r.1).val, r.2)) := by
    rw [← hval]; exact List.mem_map.mpr ⟨e, he, rfl⟩
  obtain ⟨r, hr, h⟩ := List.mem_map.mp this
  simp only [Prod.mk.injEq, hn, Num.val, readValue, if_true, timeIn, Tsres.value] at h
  have h1 := (hv r hr).1
  have h2 : (n : ℚ) * 256 = (r.1 : ℚ) := by rw [← h.1]; norm_num
  have h3 : n * 256 = r.1 := by exact_mod_cast h2
  omega

/-- The events kept, streaming. -/
theorem kept_stream (fw : Nat) (hfw : 54 ≤ fw) (fmt : Fmt) (legacy : Bool) (res : Tsres) (frac : Bool)
    (hm : (res = .ps4 ∧ frac = false) ∨ (res = .ns1 ∧ frac = true)) (a : FilterArgs) (raws : List (Nat × Nat))
    (hv : ∀ r ∈ raws, Valid r) (hrep : Representable fmt raws) (hpat : ∀ pat, a.pattern = some pat → pat < 16)
    (hs : Timed a → raws.Pairwise (fun x y => x.1 ≤ y.1)) (h53 : Timed a → res = .ps4 → ∀ r ∈ raws, r.1 < 2 ^ 53) :
    ((sreadFmt fw fmt legacy res frac 100000 (fileOf fmt legacy raws)).1.map (filterBatch a res)).flatten.map
        (fun (e : Num × Nat) => (e.1.val, e.2)) =
      (filtered a raws).map (fun r => ((readValue res frac r.1).val, r.2)) ∧
    (sreadFmt fw fmt legacy res frac 100000 (fileOf fmt legacy raws)).1.flatten.map (fun (e : Num × Nat) => (e.1.val, e.2)) =
      raws.map (fun r => ((readValue res frac r.1).val, r.2)) ∧
    (sreadFmt fw fmt legacy res frac 100000 (fileOf fmt legacy raws)).2 = none := by
  obtain ⟨evs, h1, h2, h3, h4⟩ := sreadFmt_file fw hfw fmt legacy res frac 100000 (by norm_num) raws hv hrep
  refine ⟨?_, by rw [h3]; exact h1, h4⟩
  rw [filter_batches a res _ (by rw [h3]; exact patterns_lt evs raws (fun t => (readValue res frac t).val) hv h1) hpat (by rw [h3]; exact h2)
    (fun ht => by rw [h3]; exact chronological_raws evs raws res frac h1 (hs ht)), h3]
  apply filter_raws a res frac hm evs raws h1
  intro ht
  rcases hm with ⟨rfl, rfl⟩ | ⟨rfl, rfl⟩
  · exact cmp_val evs raws h1 (h53 ht rfl)
  · exact cmp_val_ns1 evs raws h2 h1 hv

/-- The events kept, in memory. -/
theorem kept_inmemory (fw : Nat) (hfw : 54 ≤ fw) (fmt : Fmt) (legacy : Bool) (a : FilterArgs) (raws : List (Nat × Nat))
    (hv : ∀ r ∈ raws, Valid r) (hrep : Representable fmt raws) (hlen : fewest fmt ≤ raws.length)
    (hpat : ∀ pat, a.pattern = some pat → pat < 16) (hs : Timed a → raws.Pairwise (fun x y => x.1 ≤ y.1)) :
    ∃ evs, readFmt fw fmt legacy .ns1 true (fileOf fmt legacy raws) = .ok evs ∧
      (filterBatch a .ns1 evs).map (fun (e : Num × Nat) => (e.1.val, e.2)) =
        (filtered a raws).map (fun r => ((readValue .ns1 true r.1).val, r.2)) := by
  obtain ⟨evs, h1, h2, h3⟩ := readFmt_file fw hfw fmt legacy .ns1 true raws hv hrep hlen
  refine ⟨evs, h3, ?_⟩
  rw [filterBatch_eq a .ns1 evs (patterns_lt evs raws (fun t => (readValue .ns1 true t).val) hv h1) hpat h2
    (fun ht => chronological_raws evs raws .ns1 true h1 (hs ht))]
  exact filter_raws a .ns1 true (Or.inr ⟨rfl, rfl⟩) evs raws h1 (fun _ => cmp_val_ns1 evs raws h2 h1 hv)

theorem report_describes (fw : Nat) (res : Tsres) (stream : List (List (Num × Nat))) (raws : List (Nat × Nat)) (f : Nat → ℚ)
    (hv : ∀ r ∈ raws, Valid r)
    (hval : stream.flatten.map (fun (e : Num × Nat) => (e.1.val, e.2)) = raws.map (fun r => (f r.1, r.2)))
    (hns : ∀ e ∈ stream.flatten, ∀ r ∈ raws, e.1.val = f r.1 → toNs fw res e.1 = (r.1 : ℚ) / 256) :
    Describes (printStatisticsStream fw res stream) raws := by
  have hp := patterns_lt _ _ f hv hval
  obtain ⟨h1, h2, h3, h4, h5, h6, h7, h8, h9, h10, h11⟩ := C12_statistics fw res stream hp
  have hsnd : stream.flatten.map Prod.snd = raws.map Prod.snd := by
    have := congrArg (List.map Prod.snd) hval
    rw [List.map_map, List.map_map] at this
    exact this
  have hlen : stream.flatten.length = raws.length := by
    have := congrArg List.length hval
    rwa [List.length_map, List.length_map] at this
  rw [hsnd] at h2 h3 h4 h5 h6 h7 h11
  have hhead : (stream.flatten.head?).map (fun e => (e.1.val, e.2)) = raws.head?.map (fun r => (f r.1, r.2)) := by
    rw [← List.head?_map, ← List.head?_map, hval]
  have hlast : (stream.flatten.getLast?).map (fun e => (e.1.val, e.2)) = raws.getLast?.map (fun r => (f r.1, r.2)) := by
    rw [← List.getLast?_map, ← List.getLast?_map, hval]
  refine ⟨h1.trans hlen, h2, h3, h4, h5, h6, h7, h8.trans ?_, h9.trans ?_, h10, h11⟩
  · cases he : stream.flatten.head? with
    | none =>
      cases hr : raws.head? with
      | none => rfl
      | some r => rw [he, hr] at hhead; simp at hhead
    | some e =>
      cases hr : raws.head? with
      | none => rw [he, hr] at hhead; simp at hhead
      | some r =>
        rw [he, hr] at hhead
        simp only [Option.map_some, Option.some.injEq, Prod.mk.injEq] at hhead ⊢
        exact hns e (List.mem_of_head? he) r (List.mem_of_head? hr) hhead.1
  · cases he : stream.flatten.getLast? with
    | none =>
      cases hr : raws.getLast? with
      | none => rfl
      | some r => rw [he, hr] at hlast; simp at hlast
    | some e =>
      cases hr : raws.getLast? with
      | none => rw [he, hr] at hlast; simp at hlast
      | some r =>
        rw [he, hr] at hlast
        simp only [Option.map_some, Option.some.injEq, Prod.mk.injEq] at hlast ⊢
        exact hns e (List.mem_of_getLast? he) r (List.mem_of_getLast? hr) hlast.1

theorem toNs_ns1 (fw : Nat) (hfw : 54 ≤ fw) (x : Num) (t : Nat) (ht : t < 2 ^ 54)
    (h : x.val = (readValue .ns1 true t).val) : toNs fw .ns1 x = (t : ℚ) / 256 := by
  have h' : x.val = (t : ℚ) / 2 ^ 8 := by
    rw [h]; simp [readValue, Num.val, timeIn, Tsres.value]; norm_num
  have hlt : t < 2 ^ fw := lt_of_lt_of_le ht (Nat.pow_le_pow_right (by norm_num) hfw)
  cases x with
  | u64 n =>
    simp only [Num.val] at h'
    have h2 : n * 256 = t := by
      have : (n : ℚ) * 256 = t := by rw [h']; norm_num
      exact_mod_cast this
    simp only [toNs, Tsres.value]
    rw [fl_nat 53 n (by omega), Nat.cast_one, div_one, fl_nat 53 n (by omega), h']
    norm_num
  | flt q =>
    simp only [Num.val] at h'
    simp only [toNs, Tsres.value, Nat.cast_one, div_one]
    rw [h', fl_nat_div fw t 8 hlt]
    norm_num

theorem toNs_ps4 (fw : Nat) (hfw : 54 ≤ fw) (x : Num) (t : Nat) (ht : t < 2 ^ 53)
    (h : x.val = (readValue .ps4 false t).val) : toNs fw .ps4 x = (t : ℚ) / 256 := by
  have h' : x.val = (t : ℚ) := by
    rw [h]; simp [readValue, Num.val, timeIn, Tsres.value]
  have hlt : t < 2 ^ fw := lt_of_lt_of_le (lt_trans ht (by norm_num : 2 ^ 53 < 2 ^ 54)) (Nat.pow_le_pow_right (by norm_num) hfw)
  have h256 : ((Tsres.ps4.value : Nat) : ℚ) = 2 ^ 8 := by norm_num [Tsres.value]
  cases x with
  | u64 n =>
    simp only [Num.val] at h'
    have h2 : n = t := by exact_mod_cast h'
    subst h2
    simp only [toNs, h256]
    rw [fl_nat 53 n ht, fl_nat_div 53 n 8 ht]
    norm_num
  | flt q =>
    simp only [Num.val] at h'
    simp only [toNs, h256]
    rw [h', fl_nat_div fw t 8 hlt]
    norm_num

theorem printStatistics_val (evs : List (Num × Nat)) :
    printStatistics evs = printStatistics (evs.map fun e => (Num.flt e.1.val, e.2)) := by
  unfold printStatistics
  simp only [List.map_map, List.head?_map, List.getLast?_map, List.length_map, Function.comp_def]
  cases evs.head? <;> cases evs.getLast? <;> simp [Num.val]

theorem printStatistics_ok (evs : List (Num × Nat)) (h : evs ≠ []) : ∃ r, printStatistics evs = .ok r := by
  obtain ⟨e, es, rfl⟩ : ∃ e es, evs = e :: es := by
    cases evs with
    | nil => exact absurd rfl h
    | cons e es => exact ⟨e, es, rfl⟩
  unfold printStatistics
  simp only [List.map_cons, List.head?_cons, List.getLast?_cons]
  exact ⟨_, rfl⟩

end Fp
