import Verif.Spec.ConvertFail
import Verif.Lemmas.RawMain
import Verif.Lemmas.TextDamage

/-! Helper lemmas for `Verif/Props/ConvertFail.lean`. -/
namespace Fp
open Spec

theorem streamLoop_nil {α β : Type} (decode : List α → Except PyErr β) (chunk : Nat) : streamLoop decode chunk [] = ([], none) := by
  rw [streamLoop]; simp

/-- After whole buffers that were decoded, the loop goes on with what follows them. -/
theorem streamLoop_append {α β : Type} (decode : List α → Except PyErr β) (chunk : Nat) (hc : 0 < chunk) (n : Nat) (whole rest : List α)
    (hl : whole.length = n * chunk) (h : (streamLoop decode chunk whole).2 = none) :
    streamLoop decode chunk (whole ++ rest) =
      ((streamLoop decode chunk whole).1 ++ (streamLoop decode chunk rest).1, (streamLoop decode chunk rest).2) := by
  induction n generalizing whole with
  | zero =>
    have : whole = [] := List.length_eq_zero_iff.mp (by omega)
    subst this
    rw [streamLoop_nil]; rfl
  | succ n ih =>
    have hge : chunk ≤ whole.length := by rw [hl, Nat.succ_mul]; omega
    have hne : whole ≠ [] := by rintro rfl; simp at hge; omega
    have h1 : (whole ++ rest).take chunk = whole.take chunk := List.take_append_of_le_length hge
    have h2 : (whole ++ rest).drop chunk = whole.drop chunk ++ rest := List.drop_append_of_le_length hge
    have h3 : whole.take chunk ≠ [] := by
      simp only [ne_eq, List.take_eq_nil_iff, not_or]; exact ⟨by omega, hne⟩
    rw [streamLoop, dif_neg h3] at h
    rw [streamLoop.eq_def decode chunk (whole ++ rest), h1, dif_neg h3, h2, streamLoop.eq_def decode chunk whole, dif_neg h3]
    cases hd : decode (whole.take chunk) with
    | error e => rw [hd] at h; simp at h
    | ok b =>
      rw [hd] at h
      simp only at h ⊢
      rw [ih (whole.drop chunk) (by rw [List.length_drop, hl, Nat.succ_mul]; omega) h]
      rfl

/-- What was decoded before an error is what whole buffers at the beginning give. -/
theorem streamLoop_error {α β : Type} (decode : List α → Except PyErr β) (chunk : Nat) (file : List α) (e : PyErr)
    (h : (streamLoop decode chunk file).2 = some e) :
    ∃ n, n * chunk < file.length ∧ streamLoop decode chunk (file.take (n * chunk)) = ((streamLoop decode chunk file).1, none) := by
  induction hn : file.length using Nat.strongRecOn generalizing file with
  | ind m ih =>
    by_cases h0 : file.take chunk = []
    · rw [streamLoop, dif_pos h0] at h; simp at h
    · have hpos : 0 < chunk ∧ 0 < file.length := by
        simp only [List.take_eq_nil_iff, not_or] at h0
        exact ⟨by omega, List.length_pos_iff.mpr h0.2⟩
      rw [streamLoop.eq_def decode chunk file, dif_neg h0] at h ⊢
      cases hd : decode (file.take chunk) with
      | error e' =>
        refine ⟨0, by omega, ?_⟩
        rw [Nat.zero_mul, List.take_zero, streamLoop_nil]
      | ok b =>
        rw [hd] at h
        simp only at h ⊢
        have hlt : chunk < file.length := by
          by_contra hge
          rw [List.drop_eq_nil_of_le (by omega), streamLoop_nil] at h
          simp at h
        obtain ⟨n, h1, h2⟩ := ih _ (by rw [List.length_drop]; omega) (file.drop chunk) h rfl
        refine ⟨n + 1, by rw [List.length_drop] at h1; rw [Nat.succ_mul]; omega, ?_⟩
        have e1 : (file.take ((n + 1) * chunk)).take chunk = file.take chunk := by
          rw [List.take_take, Nat.min_eq_left (by rw [Nat.succ_mul]; omega)]
        have e2 : (file.take ((n + 1) * chunk)).drop chunk = (file.drop chunk).take (n * chunk) := by
          rw [List.drop_take]; congr 1; rw [Nat.succ_mul]; omega
        rw [streamLoop.eq_def decode chunk (file.take _), e1, dif_neg h0, hd, e2, h2]

theorem bytesText_plain (b : Bytes) (h : PlainText b) : bytesText b = .ok (b.map fun x => Char.ofNat x.toNat) := by
  have table : ∀ n : Fin 128, n.val ≠ 13 → Char.ofNat n.val ≠ '\r' ∧ (Char.ofNat n.val).toNat = n.val := by decide +kernel
  have key : ∀ x ∈ b, Char.ofNat x.toNat ≠ '\r' ∧ (Char.ofNat x.toNat).toNat = x.toNat :=
    fun x hx => table ⟨x.toNat, (h x hx).1⟩ (h x hx).2
  have := bytesText_ascii (b.map fun x => Char.ofNat x.toNat) (by
    intro c hc
    obtain ⟨x, hx, rfl⟩ := List.mem_map.mp hc
    exact ⟨by rw [(key x hx).2]; exact (h x hx).1, (key x hx).1⟩)
  rw [← this]
  congr 1
  rw [List.map_map]
  conv_lhs => rw [← List.map_id b]
  apply List.map_congr_left
  intro x hx
  simp only [Function.comp, (key x hx).2, id]
  exact (UInt8.ofNat_toNat).symm

theorem plainText_sub {a b : Bytes} (h : PlainText b) (hs : ∀ x ∈ a, x ∈ b) : PlainText a := fun x hx => h x (hs x hx)

/-- The decoder of one buffer of characters or bytes. -/
def decodeText (fw : Nat) (fmt : Fmt) (res : Tsres) (frac : Bool) (buffer : List Char) : Except PyErr (List (Num × Nat)) :=
  match fmt with
  | .a0 => decodeA0 fw res frac (splitNl (strip buffer))
  | _ => decodeA2 fw res frac (splitNl (strip buffer))

theorem sreadFmt_text (fw : Nat) (fmt : Fmt) (hf : fmt ≠ .a1) (legacy : Bool) (res : Tsres) (frac : Bool) (b : Nat) (file : Bytes)
    (h : PlainText file) : sreadFmt fw fmt legacy res frac b file =
      streamLoop (decodeText fw fmt res frac) (b * recordSize fmt) (file.map fun x => Char.ofNat x.toNat) := by
  cases fmt with
  | a1 => exact absurd rfl hf
  | a0 => simp only [sreadFmt, bytesText_plain file h, sreadA0, recordSize]; rfl
  | a2 => simp only [sreadFmt, bytesText_plain file h, sreadA2, recordSize]; rfl

theorem sreadFmt_error (fw : Nat) (fmt : Fmt) (legacy : Bool) (res : Tsres) (frac : Bool) (b : Nat) (file : Bytes)
    (ht : fmt ≠ .a1 → PlainText file) (e : PyErr) (h : (sreadFmt fw fmt legacy res frac b file).2 = some e) :
    ∃ n, n * (b * recordSize fmt) < file.length ∧
      sreadFmt fw fmt legacy res frac b (file.take (n * (b * recordSize fmt))) = ((sreadFmt fw fmt legacy res frac b file).1, none) := by
  by_cases hf : fmt = .a1
  · subst hf
    exact streamLoop_error _ _ _ e h
  · rw [sreadFmt_text fw fmt hf legacy res frac b file (ht hf)] at h ⊢
    obtain ⟨n, h1, h2⟩ := streamLoop_error _ _ _ e h
    rw [List.length_map] at h1
    refine ⟨n, h1, ?_⟩
    rw [sreadFmt_text fw fmt hf legacy res frac b _ (plainText_sub (ht hf) fun x hx => List.mem_of_mem_take hx), List.map_take, h2]

theorem fileOf_plain (fmt : Fmt) (hf : fmt ≠ .a1) (legacy : Bool) (raws : List (Nat × Nat)) : PlainText (fileOf fmt legacy raws) := by
  have key : ∀ cs : List Char, (∀ c ∈ cs, c.toNat < 128 ∧ c ≠ '\r') → PlainText (cs.map fun c => UInt8.ofNat c.toNat) := by
    intro cs h x hx
    obtain ⟨c, hc, rfl⟩ := List.mem_map.mp hx
    have h1 := h c hc
    rw [UInt8.toNat_ofNat', Nat.mod_eq_of_lt (by omega)]
    refine ⟨h1.1, fun h13 => h1.2 ?_⟩
    rw [← Char.ofNat_toNat c, h13]
  cases fmt with
  | a1 => exact absurd rfl hf
  | a0 => exact key _ (a0_ascii raws)
  | a2 => exact key _ (a2_ascii raws)

theorem fileOf_append (fmt : Fmt) (legacy : Bool) (r1 r2 : List (Nat × Nat)) :
    fileOf fmt legacy (r1 ++ r2) = fileOf fmt legacy r1 ++ fileOf fmt legacy r2 := by
  cases fmt <;> simp [fileOf, List.flatMap_append]

theorem fileOf_length (fmt : Fmt) (legacy : Bool) (raws : List (Nat × Nat)) (hv : ∀ r ∈ raws, Valid r) :
    (fileOf fmt legacy raws).length = raws.length * recordSize fmt := by
  induction raws with
  | nil => cases fmt <;> simp [fileOf]
  | cons r raws ih =>
    rw [← List.singleton_append, fileOf_append, List.length_append, ih fun x hx => hv x (by simp [hx]), List.length_append, Nat.add_mul]
    congr 1
    have hr := hv r (by simp)
    cases fmt with
    | a1 => simp [fileOf, recordSize, a1Event_length]
    | a0 => simp [fileOf, recordSize, a0_event_length r hr]
    | a2 =>
      have h1 := hr.1
      have h2 := hr.2
      simp only [fileOf, recordSize, List.flatMap_cons, List.flatMap_nil, List.append_nil, List.length_map]
      show (hexPad 16 (r.1 * 1024 + r.2) ++ ['\n']).length = _
      rw [List.length_append, hexPad_length 16 _ (by norm_num) (lt_hex16 (by omega))]
      rfl

theorem recordSize_pos (fmt : Fmt) : 0 < recordSize fmt := by cases fmt <;> decide

/-- A file with something else in the place of an event: the batches before it, then `ValueError`. -/
theorem sreadFmt_damaged (fw : Nat) (fmt : Fmt) (legacy : Bool) (res : Tsres) (frac : Bool) (pre : List (Nat × Nat)) (d : Bytes)
    (hv : ∀ r ∈ pre, Valid r) (hd : NoEvent fmt d)
    (hok : (sreadFmt fw fmt legacy res frac 100000 (fileOf fmt legacy (wholeBatches pre))).2 = none) :
    sreadFmt fw fmt legacy res frac 100000 (fileOf fmt legacy pre ++ d) =
      ((sreadFmt fw fmt legacy res frac 100000 (fileOf fmt legacy (wholeBatches pre))).1, some .valueError) := by
  obtain ⟨tail, htail⟩ : ∃ t, pre.drop (100000 * (pre.length / 100000)) = t := ⟨_, rfl⟩
  have hpre : pre = wholeBatches pre ++ tail := by
    rw [← htail, wholeBatches, List.take_append_drop]
  have htl : tail.length < 100000 := by
    rw [← htail, List.length_drop]; omega
  have hwl : (wholeBatches pre).length = pre.length / 100000 * 100000 := by
    rw [wholeBatches, List.length_take]; omega
  have hwv : ∀ r ∈ wholeBatches pre, Valid r := fun r hr => hv r (List.mem_of_mem_take hr)
  have htv : ∀ r ∈ tail, Valid r := fun r hr => hv r (by rw [← htail] at hr; exact List.mem_of_mem_drop hr)
  have hlen : (fileOf fmt legacy (wholeBatches pre)).length = pre.length / 100000 * (100000 * recordSize fmt) := by
    rw [fileOf_length fmt legacy _ hwv, hwl, Nat.mul_assoc]
  have htlen := fileOf_length fmt legacy tail htv
  have hfile : fileOf fmt legacy pre ++ d = fileOf fmt legacy (wholeBatches pre) ++ (fileOf fmt legacy tail ++ d) := by
    conv_lhs => rw [hpre]
    rw [fileOf_append, List.append_assoc]
  rw [hfile]
  have hpos := recordSize_pos fmt
  by_cases hf : fmt = .a1
  · subst hf
    simp only [recordSize] at hlen htlen hpos
    have hb : 0 < 100000 * 8 := by norm_num
    show streamLoop (decodeBuffer fw legacy res frac) (100000 * 8) _ = ((streamLoop (decodeBuffer fw legacy res frac) (100000 * 8) _).1, _)
    rw [streamLoop_append _ _ hb _ _ _ hlen hok]
    have hd1 : 0 < d.length := hd.1
    have hd2 : d.length < 8 := hd.2
    have hlen2 : (fileOf .a1 legacy tail ++ d).length = tail.length * 8 + d.length := by rw [List.length_append, htlen]
    have h1 : (fileOf .a1 legacy tail ++ d).take (100000 * 8) = fileOf .a1 legacy tail ++ d := List.take_of_length_le (by omega)
    rw [streamLoop.eq_def _ _ (fileOf .a1 legacy tail ++ d), h1, dif_neg (by intro h; rw [h] at hlen2; simp at hlen2; omega),
      decodeBuffer_broken fw legacy res frac _ (by rw [hlen2]; omega)]
    simp
  · have hd' : PlainText d ∧ ∃ (before : Bytes) (x : UInt8) (after : Bytes), d = before ++ x :: after ∧
        before.length < recordSize fmt ∧ Foreign (Char.ofNat x.toNat) := by
      cases fmt with
      | a1 => exact absurd rfl hf
      | a0 => exact hd
      | a2 => exact hd
    obtain ⟨hdp, before, x, after, hdx, hbl, hx⟩ := hd'
    have hp1 := fileOf_plain fmt hf legacy (wholeBatches pre)
    have hp2 := fileOf_plain fmt hf legacy tail
    rw [sreadFmt_text fw fmt hf legacy res frac _ _ hp1] at hok ⊢
    rw [sreadFmt_text fw fmt hf legacy res frac _ _ (by
      intro y hy
      simp only [List.mem_append] at hy
      rcases hy with hy | hy | hy
      · exact hp1 y hy
      · exact hp2 y hy
      · exact hdp y hy), List.map_append,
      streamLoop_append _ _ (by omega) _ _ _ (by rw [List.length_map]; exact hlen) hok]
    obtain ⟨c, hc⟩ : ∃ c, Char.ofNat x.toNat = c := ⟨_, rfl⟩
    have hmem : c ∈ ((fileOf fmt legacy tail ++ d).map fun x => Char.ofNat x.toNat).take (100000 * recordSize fmt) := by
      rw [hdx, ← List.append_assoc, List.map_append, List.map_cons, hc]
      rw [List.take_append, List.mem_append]
      right
      have : 0 < 100000 * recordSize fmt - (List.map (fun x => Char.ofNat x.toNat) (fileOf fmt legacy tail ++ before)).length := by
        rw [List.length_map, List.length_append, htlen]
        have : tail.length * recordSize fmt + recordSize fmt ≤ 100000 * recordSize fmt := by
          calc tail.length * recordSize fmt + recordSize fmt = (tail.length + 1) * recordSize fmt := by ring
            _ ≤ _ := Nat.mul_le_mul_right _ (by omega)
        omega
      obtain ⟨k, hk⟩ : ∃ k, 100000 * recordSize fmt - (List.map (fun x => Char.ofNat x.toNat) (fileOf fmt legacy tail ++ before)).length = k + 1 :=
        ⟨_, (Nat.succ_pred_eq_of_pos this).symm⟩
      rw [hk]
      simp
    obtain ⟨part, hpart⟩ : ∃ p, ((fileOf fmt legacy tail ++ d).map fun x => Char.ofNat x.toNat).take (100000 * recordSize fmt) = p := ⟨_, rfl⟩
    rw [hpart] at hmem
    rw [hc] at hx
    have hdec : decodeText fw fmt res frac part = .error .valueError := by
      cases fmt with
      | a1 => exact absurd rfl hf
      | a0 => exact decodeA0_foreign hx fw res frac _ (stream_line hx part hmem)
      | a2 => exact decodeA2_foreign hx fw res frac _ (stream_line hx part hmem)
    rw [streamLoop.eq_def _ _ (List.map _ (fileOf fmt legacy tail ++ d)), hpart, dif_neg (by rintro rfl; simp at hmem), hdec]
    simp

theorem wholeBatches_representable (fmt : Fmt) (pre : List (Nat × Nat)) (h : Representable fmt pre) :
    Representable fmt (wholeBatches pre) := by
  have sub : ∀ r ∈ wholeBatches pre, r ∈ pre := fun r hr => List.mem_of_mem_take hr
  cases fmt with
  | a0 => exact fun r hr => h r (sub r hr)
  | a1 => trivial
  | a2 => exact h.imp (fun h r hr => h r (sub r hr)) (fun h r hr => h r (sub r hr))

end Fp
