import Verif.Model.EpochHead
import Verif.Spec.EpochHead
import Verif.Props.EpochNames
import Verif.Lemmas.Decimal
import Verif.Lemmas.Bytes

/-! # C92: headers of epoch files and the warnings about them -/
namespace Fp
open Spec

theorem lastPart_eq (path name : List Char) (h : LastComponent path name) : lastPart path = name := by
  obtain ⟨h0, h⟩ := h
  have hn : ∀ l : List Char, ((name.reverse ++ l).takeWhile (· ≠ '/')) = name.reverse ++ l.takeWhile (· ≠ '/') := by
    intro l
    rw [List.takeWhile_append_of_pos]
    intro c hc
    have : c ≠ '/' := by rintro rfl; exact h0 (by simpa using hc)
    simpa using this
  unfold lastPart
  rcases h with rfl | ⟨dir, rfl⟩
  · have := hn []
    simp only [List.append_nil] at this
    rw [this]
    simp
  · rw [List.reverse_append, List.reverse_cons, List.append_assoc, hn]
    simp

theorem hexOf_name (n : Nat) (name : List Char) : hexOf n = name ↔ NameOf name n := by
  have h : hexOf n = int2epoch (n : Int) := by unfold int2epoch; simp
  rw [h]
  constructor
  · intro hn
    have hc := C23_names_canonical n
    rw [hn] at hc
    refine ⟨hc, ?_⟩
    have h1 := C23_number_name_number n
    rw [hn, (C23_name_number_name name hc).1] at h1
    have : (digitsValue name : Int) = n := by injection h1
    omega
  · rintro ⟨hc, rfl⟩
    exact (C23_name_number_name name hc).2

theorem headWarnings_spec (n shown : Nat) (path name : List Char) (h : LastComponent path name) (tag : Int) (epoch : Nat) :
    Warnings n shown path name tag epoch (headWarnings n shown path tag epoch) := by
  refine ⟨_, _, rfl, ?_, ?_⟩
  · by_cases ht : tag = n ∨ tag = 256 + (n : Int)
    · left
      refine ⟨ht, ?_⟩
      rw [if_neg]
      rintro ⟨h1, h2⟩
      rcases ht with ht | ht
      · exact h2 ht
      · exact h1 ht
    · right
      refine ⟨ht, _, ?_, natDigits shown, natDigits_ne _, natDigits_spec _, rfl⟩
      rw [if_pos]
      push Not at ht
      exact ⟨ht.2, ht.1⟩
  · rw [lastPart_eq path name h]
    by_cases he : NameOf name epoch
    · left
      refine ⟨he, ?_⟩
      rw [if_neg]
      rw [(hexOf_name _ _).mpr he]
      simp
    · right
      refine ⟨he, _, ?_, natDigits epoch, natDigits_ne _, natDigits_spec _, rfl⟩
      rw [if_pos]
      intro hc
      apply he
      rw [← hexOf_name]
      simpa using hc

theorem field_eq (v : Int) (h1 : -2 ^ 31 ≤ v) (h2 : v < 2 ^ 32) : headField v = leBytes 4 (v % 2 ^ 32).toNat := by
  have e0 : (v % 256).toNat = (v % 2 ^ 32).toNat % 256 := by omega
  have e1 : (v / 256 % 256).toNat = (v % 2 ^ 32).toNat / 256 % 256 := by omega
  have e2 : (v / 65536 % 256).toNat = (v % 2 ^ 32).toNat / 256 / 256 % 256 := by omega
  have e3 : (v / 16777216 % 256).toNat = (v % 2 ^ 32).toNat / 256 / 256 / 256 % 256 := by omega
  simp only [headField, leBytes]
  rw [e0, e1, e2, e3]

theorem field_length (v : Int) : (headField v).length = 4 := rfl

theorem leNat_field (v : Int) (h1 : -2 ^ 31 ≤ v) (h2 : v < 2 ^ 32) : leNat (headField v) = (v % 2 ^ 32).toNat := by
  rw [field_eq v h1 h2, leNat_leBytes]
  apply Nat.mod_eq_of_lt
  norm_num
  omega

theorem signed_field (v : Int) (h : I32 v) : toSigned32 (leNat (headField v)) = v := by
  obtain ⟨h1, h2⟩ := h
  rw [leNat_field v h1 (by omega)]
  unfold toSigned32
  split <;> omega

theorem unsigned_field (v : Nat) (h : U32 v) : leNat (headField v) = v := by
  unfold U32 at h
  rw [leNat_field v (by omega) (by omega)]
  omega

/-- **C92** The header fields are read as they are stored: 32-bit numbers, least significant byte first, signed except epoch and
length (and all fields of T4); files shorter than the header raise `struct.error`. -/
theorem C92_fields (path : List Char) (rest : Bytes) (tag : Int) (epoch length : Nat) (a b c : Int) (ht : I32 tag) (he : U32 epoch)
    (hl : U32 length) (ha : I32 a) (hb : I32 b) (hc : I32 c) (tag4 a4 b4 : Nat) (ht4 : U32 tag4) (ha4 : U32 a4) (hb4 : U32 b4) :
    (∃ ws, readT1HeaderW path (headField tag ++ headField epoch ++ headField length ++ headField a ++ headField b ++ rest) =
      .ok ({ tag := tag, epoch := epoch, length := length, bitsPerEntry := a, baseBits := b }, ws)) ∧
    (∃ ws, readT2HeaderW path (headField tag ++ headField epoch ++ headField length ++ headField a ++ headField b ++ headField c ++ rest) =
      .ok ({ tag := tag, epoch := epoch, length := length, timeorder := a, baseBits := b, protocol := c }, ws)) ∧
    (∃ ws, readT3HeaderW path (headField tag ++ headField epoch ++ headField length ++ headField a ++ rest) =
      .ok ({ tag := tag, epoch := epoch, length := length, bitsPerEntry := a }, ws)) ∧
    (∃ ws, readT4HeaderW path (headField tag4 ++ headField epoch ++ headField length ++ headField a4 ++ headField b4 ++ rest) =
      .ok ({ tag := tag4, epoch := epoch, length := length, timeorder := a4, baseBits := b4 }, ws)) ∧
    (rest.length < 20 → readT1HeaderW path rest = .error .structError ∧ readT4HeaderW path rest = .error .structError) ∧
    (rest.length < 24 → readT2HeaderW path rest = .error .structError) ∧
    (rest.length < 16 → readT3HeaderW path rest = .error .structError) := by
  have s1 := signed_field tag ht
  have s2 := unsigned_field epoch he
  have s3 := unsigned_field length hl
  have s4 := signed_field a ha
  have s5 := signed_field b hb
  have s6 := signed_field c hc
  have s7 := unsigned_field tag4 ht4
  have s8 := unsigned_field a4 ha4
  have s9 := unsigned_field b4 hb4
  have e1 : readT1Header (headField tag ++ headField epoch ++ headField length ++ headField a ++ headField b ++ rest) =
      .ok { tag := tag, epoch := epoch, length := length, bitsPerEntry := a, baseBits := b } := by
    unfold readT1Header headWord
    simp only [headField, List.cons_append, List.nil_append, List.take_succ_cons, List.take_zero, List.drop_succ_cons, List.drop_zero,
      List.length_cons, List.length_nil, Nat.reduceMul, Nat.reduceAdd, if_true] at *
    rw [s1, s2, s3, s4, s5]
  have e2 : readT2Header (headField tag ++ headField epoch ++ headField length ++ headField a ++ headField b ++ headField c ++ rest) =
      .ok { tag := tag, epoch := epoch, length := length, timeorder := a, baseBits := b, protocol := c } := by
    unfold readT2Header headWord
    simp only [headField, List.cons_append, List.nil_append, List.take_succ_cons, List.take_zero, List.drop_succ_cons, List.drop_zero,
      List.length_cons, List.length_nil, Nat.reduceMul, Nat.reduceAdd, if_true] at *
    rw [s1, s2, s3, s4, s5, s6]
  have e3 : readT3Header (headField tag ++ headField epoch ++ headField length ++ headField a ++ rest) =
      .ok { tag := tag, epoch := epoch, length := length, bitsPerEntry := a } := by
    unfold readT3Header headWord
    simp only [headField, List.cons_append, List.nil_append, List.take_succ_cons, List.take_zero, List.drop_succ_cons, List.drop_zero,
      List.length_cons, List.length_nil, Nat.reduceMul, Nat.reduceAdd, if_true] at *
    rw [s1, s2, s3, s4]
  have e4 : readT4Header (headField tag4 ++ headField epoch ++ headField length ++ headField a4 ++ headField b4 ++ rest) =
      .ok { tag := tag4, epoch := epoch, length := length, timeorder := a4, baseBits := b4 } := by
    unfold readT4Header headWord
    simp only [headField, List.cons_append, List.nil_append, List.take_succ_cons, List.take_zero, List.drop_succ_cons, List.drop_zero,
      List.length_cons, List.length_nil, Nat.reduceMul, Nat.reduceAdd, if_true] at *
    rw [s7, s2, s3, s8, s9]
  refine ⟨⟨_, by unfold readT1HeaderW; rw [e1]; rfl⟩, ⟨_, by unfold readT2HeaderW; rw [e2]; rfl⟩,
    ⟨_, by unfold readT3HeaderW; rw [e3]; rfl⟩, ⟨_, by unfold readT4HeaderW; rw [e4]; rfl⟩, fun h => ⟨?_, ?_⟩, fun h => ?_, fun h => ?_⟩
  · unfold readT1HeaderW readT1Header
    simp only [List.length_take]
    rw [if_neg (by omega)]
    rfl
  · unfold readT4HeaderW readT4Header
    simp only [List.length_take]
    rw [if_neg (by omega)]
    rfl
  · unfold readT2HeaderW readT2Header
    simp only [List.length_take]
    rw [if_neg (by omega)]
    rfl
  · unfold readT3HeaderW readT3Header
    simp only [List.length_take]
    rw [if_neg (by omega)]
    rfl

theorem bind_ok {α β : Type} (x : Except PyErr α) (f : α → β) (r : β) (h : (do let a ← x; return f a : Except PyErr β) = .ok r) :
    ∃ a, x = .ok a ∧ r = f a := by
  cases x with
  | error e => cases h
  | ok a => exact ⟨a, rfl, by injection h with h; exact h.symm⟩

/-- **C92** Exactly the warnings one expects: about the type if the tag is neither `n` nor `0x100 + n`, about the epoch if the file
name is not the epoch of the header in lower-case hexadecimal without leading zeros.  (Types 2 to 4; type 1 is reported with the
wrong number.) -/
theorem C92_warnings_partial (path name : List Char) (file : Bytes) (h : LastComponent path name) :
    (∀ hd ws, readT2HeaderW path file = .ok (hd, ws) → Warnings 2 2 path name hd.tag hd.epoch ws) ∧
    (∀ hd ws, readT3HeaderW path file = .ok (hd, ws) → Warnings 3 3 path name hd.tag hd.epoch ws) ∧
    (∀ hd ws, readT4HeaderW path file = .ok (hd, ws) → Warnings 4 4 path name hd.tag hd.epoch ws) ∧
    (∀ hd ws, readT1HeaderW path file = .ok (hd, ws) → Warnings 1 2 path name hd.tag hd.epoch ws) := by
  refine ⟨fun hd ws hr => ?_, fun hd ws hr => ?_, fun hd ws hr => ?_, fun hd ws hr => ?_⟩ <;>
  · obtain ⟨a, -, h2⟩ := bind_ok _ _ _ hr
    simp only [Prod.mk.injEq] at h2
    obtain ⟨rfl, rfl⟩ := h2
    exact headWarnings_spec _ _ path name h _ _

/-- **C92** The warning about a file that is not of type 1 never says so, whatever the file. -/
theorem C92_type1_violated (path name : List Char) (file : Bytes) (hd : HeadT1) (ws : List (List Char)) (hr : readT1HeaderW path file = .ok (hd, ws)) (ht : ¬ (hd.tag = 1 ∨ hd.tag = 257)) :
    ¬ Warnings 1 1 path name hd.tag hd.epoch ws := by
  obtain ⟨a, -, h2⟩ := bind_ok _ _ _ hr
  simp only [Prod.mk.injEq] at h2
  obtain ⟨rfl, rfl⟩ := h2
  rintro ⟨x, y, hxy, hx, -⟩
  rcases hx with ⟨hx, -⟩ | ⟨-, w, rfl, t, -, hd1, hw⟩
  · apply ht
    norm_num at hx
    exact hx
  · unfold headWarnings at hxy
    rw [if_pos (by push Not at ht; exact ⟨by norm_num; exact ht.2, by norm_num; exact ht.1⟩)] at hxy
    simp only [List.cons_append, List.nil_append, List.cons.injEq] at hxy
    have h3 := hxy.1
    rw [hw] at h3
    simp only [List.append_assoc, List.append_cancel_left_eq] at h3
    have h4 : natDigits 2 = t := List.append_cancel_right h3
    have h5 : natDigits 2 = ['2'] := by decide +kernel
    rw [h5] at h4
    subst h4
    obtain ⟨ds, hds, hv⟩ := hd1
    cases hds with
    | cons hc hr =>
      rename_i d ds
      cases hr
      simp at hv
      subst hv
      revert hc
      decide

/-- **C92** Files written by `write_T1` are read without warnings, from any directory. -/
theorem C92_written (fullEpoch : Int) (ts : List Int) (ds : Detectors) (name : List Char) (bytes : Bytes) (dir : List Char)
    (hw : writeT1 fullEpoch ts ds = .ok (name, bytes, none)) :
    ∃ hd, readT1HeaderW (dir ++ '/' :: name) bytes = .ok (hd, []) ∧ (hd.epoch : Int) = fullEpoch % 2 ^ 32 ∧ hd.length = ts.length := by
  have key : ∃ rest, name = hexOf (fullEpoch % 2 ^ 32).toNat ∧ ts.length < 2 ^ 32 ∧ bytes = leBytes 4 0x101 ++
      leBytes 4 (fullEpoch % 2 ^ 32).toNat ++ leBytes 4 ts.length ++ leBytes 4 49 ++ leBytes 4 4 ++ rest := by
    unfold writeT1 at hw
    dsimp only at hw
    cases ds with
    | scalar d =>
      dsimp only at hw
      have hl := Except.ok.inj hw
      split at hl
      · rename_i hlen
        split at hl
        · simp at hl
        · simp only [Prod.mk.injEq] at hl
          exact ⟨_, hl.1.symm, hlen, by rw [← hl.2.1]; simp only [List.append_assoc]; rfl⟩
      · simp at hl
    | list l =>
      dsimp only at hw
      split at hw
      · cases hw
      have hl := Except.ok.inj hw
      split at hl
      · rename_i hlen
        split at hl
        · simp at hl
        · simp only [Prod.mk.injEq] at hl
          exact ⟨_, hl.1.symm, hlen, by rw [← hl.2.1]; simp only [List.append_assoc]; rfl⟩
      · simp at hl
  obtain ⟨rest, hname, hlen, rfl⟩ := key
  have he : (fullEpoch % 2 ^ 32).toNat < 2 ^ 32 := by omega
  have hepoch : (((fullEpoch % 2 ^ 32).toNat : Nat) : Int) = fullEpoch % 2 ^ 32 := by omega
  generalize (fullEpoch % 2 ^ 32).toNat = ep at *
  have hcomp : LastComponent (dir ++ '/' :: name) name := by
    refine ⟨?_, .inr ⟨dir, rfl⟩⟩
    intro hs
    have := ((hexOf_name _ _).mp hname.symm).1.2.1 _ hs
    revert this
    decide
  have f1 : headField 0x101 = leBytes 4 0x101 := by decide +kernel
  have f2 := field_eq ep (by omega) (by omega)
  have f3 := field_eq (ts.length : Nat) (by omega) (by omega)
  have f4 : headField 49 = leBytes 4 49 := by decide +kernel
  have f5 : headField 4 = leBytes 4 4 := by decide +kernel
  have g2 : ((ep : Int) % 2 ^ 32).toNat = ep := by omega
  rw [g2] at f2
  have g3 : ((ts.length : Int) % 2 ^ 32).toNat = ts.length := by omega
  rw [g3] at f3
  obtain ⟨ws, hws⟩ := (C92_fields (dir ++ '/' :: name) rest 0x101 ep ts.length 49 4 0 (by unfold I32; omega)
    he hlen (by unfold I32; omega) (by unfold I32; omega) (by unfold I32; omega) 0 0 0 (by unfold U32; omega) (by unfold U32; omega)
    (by unfold U32; omega)).1
  rw [f1, f2, f3, f4, f5] at hws
  obtain ⟨a, b, hab, ha, hb⟩ := (C92_warnings_partial _ name _ hcomp).2.2.2 _ _ hws
  have ha' : a = [] := by
    rcases ha with ⟨-, ha⟩ | ⟨ha, -⟩
    · exact ha
    · exact absurd (Or.inr (by norm_num)) ha
  have hb' : b = [] := by
    rcases hb with ⟨-, hb⟩ | ⟨hb, -⟩
    · exact hb
    · exact absurd ((hexOf_name _ _).mp hname.symm) hb
  subst ha' hb'
  subst hab
  exact ⟨_, hws, hepoch, rfl⟩

theorem padded_warns (n shown ty : Nat) (dir : List Char) (tag : Int) (hn : n < 2 ^ 28) (ws : List (List Char))
    (h : Warnings ty shown (dir ++ '/' :: hexPad 8 n) (hexPad 8 n) tag n ws) :
    ∃ w ∈ ws, WrongEpoch n (dir ++ '/' :: hexPad 8 n) w := by
  obtain ⟨a, b, rfl, -, hb⟩ := h
  rcases hb with ⟨hb, -⟩ | ⟨-, w, rfl, hw⟩
  · exfalso
    have h1 := (hexOf_name n _).mpr hb
    have h2 : hexOf n = int2epoch (n : Int) := by unfold int2epoch; simp
    rw [h2] at h1
    have := (C23_padding n (by omega)).mp h1.symm
    omega
  · exact ⟨w, by simp, hw⟩

theorem hexPad_component (w n : Nat) (dir : List Char) : LastComponent (dir ++ '/' :: hexPad w n) (hexPad w n) := by
  refine ⟨?_, .inr ⟨dir, rfl⟩⟩
  rw [hexPad_eq]
  intro hs
  obtain ⟨d, hd, h⟩ := List.mem_map.mp hs
  have key : ∀ d : Fin 16, hexChar d.val ≠ '/' := by decide
  exact key ⟨d, padDigs_lt w n d hd⟩ h

/-- **C92** A name padded to eight digits, as `date2epoch` makes them, for an epoch below 2^28 (before August 1974): every reader
warns although the name says the right epoch. -/
theorem C92_padded (n : Nat) (dir : List Char) (file : Bytes) (hn : n < 2 ^ 28) :
    (∀ hd ws, readT1HeaderW (dir ++ '/' :: hexPad 8 n) file = .ok (hd, ws) → hd.epoch = n →
      ∃ w ∈ ws, WrongEpoch n (dir ++ '/' :: hexPad 8 n) w) ∧
    (∀ hd ws, readT2HeaderW (dir ++ '/' :: hexPad 8 n) file = .ok (hd, ws) → hd.epoch = n →
      ∃ w ∈ ws, WrongEpoch n (dir ++ '/' :: hexPad 8 n) w) ∧
    (∀ hd ws, readT3HeaderW (dir ++ '/' :: hexPad 8 n) file = .ok (hd, ws) → hd.epoch = n →
      ∃ w ∈ ws, WrongEpoch n (dir ++ '/' :: hexPad 8 n) w) ∧
    (∀ hd ws, readT4HeaderW (dir ++ '/' :: hexPad 8 n) file = .ok (hd, ws) → hd.epoch = n →
      ∃ w ∈ ws, WrongEpoch n (dir ++ '/' :: hexPad 8 n) w) := by
  obtain ⟨h2, h3, h4, h1⟩ := C92_warnings_partial _ _ file (hexPad_component 8 n dir)
  refine ⟨fun hd ws h e => ?_, fun hd ws h e => ?_, fun hd ws h e => ?_, fun hd ws h e => ?_⟩
  · exact padded_warns n _ _ dir _ hn ws (e ▸ h1 hd ws h)
  · exact padded_warns n _ _ dir _ hn ws (e ▸ h2 hd ws h)
  · exact padded_warns n _ _ dir _ hn ws (e ▸ h3 hd ws h)
  · exact padded_warns n _ _ dir _ hn ws (e ▸ h4 hd ws h)

/-- Instances of C92: a T2 file with tag 5 and epoch 0xb7f0, and the same header in a file with an upper-case name. -/
example : (readT2HeaderW "/tmp/b7f0".toList (headField 5 ++ headField 0xb7f0 ++ headField 0 ++ headField (-3) ++ headField 2 ++ headField 1)).toOption.map (·.2) =
      some ["/tmp/b7f0 is not a Type2 header file".toList] ∧
    (readT2HeaderW "t/B7F0".toList (headField 0x102 ++ headField 0xb7f0 ++ headField 0 ++ headField (-3) ++ headField 2 ++ headField 1)).toOption.map
        (fun r => (r.1.timeorder, r.2)) =
      some (-3, ["Epoch in header 47088 does not match epoc filename t/B7F0".toList]) ∧
    (readT1HeaderW "ab".toList (headField 2 ++ headField 0xab ++ headField 0 ++ headField 49 ++ headField 4)).toOption.map (·.2) =
      some ["ab is not a Type2 header file".toList] := by
  decide +kernel

/-- Instance of C92_written. -/
example : (writeT1 0x1ab [5, 9] (.list [1, 8])).toOption.map (fun r => (r.1, r.2.2)) = some ("1ab".toList, none) := by
  decide +kernel

end Fp
