import Verif.Model.TestGen
import Verif.Props.RawA1

/-! Helper lemmas for `Verif/Props/TestGen.lean`. -/
namespace Fp
open Spec

theorem packQ_line (legacy : Bool) (l : Nat) (h : l < 2 ^ 64) :
    packQ (if legacy = true then (l &&& 0xFFFFFFFF) <<< 32 + l >>> 32 else l) = .ok (encodeA1 legacy l) := by
  unfold packQ encodeA1 swapWords
  have hsw : (l &&& 0xFFFFFFFF) <<< 32 + l >>> 32 < 2 ^ 64 := by
    rw [and32, shr_eq, shl_eq]
    have := Nat.mod_lt l (show 0 < 2 ^ 32 by norm_num)
    omega
  cases legacy
  · simp only [Bool.false_eq_true, if_false]
    rw [if_pos h]
  · simp only [if_true]
    rw [if_pos hsw]

theorem getEvent_eq (legacy : Bool) (t p : Int) (ht : 0 ≤ t) (hp : 0 ≤ p) (hp' : p < 16) :
    getEvent legacy t p = .ok (a1Event legacy (t.toNat % 2 ^ 54, p.toNat)) := by
  unfold getEvent
  rw [if_neg (by omega)]
  have hm : (if t ≥ 1 <<< 54 then t.toNat &&& 0x3FFFFFFFFFFFFF else t.toNat) = t.toNat % 2 ^ 54 := by
    split
    · exact Nat.and_two_pow_sub_one_eq_mod t.toNat 54
    · rename_i h
      have h : t < ((1 <<< 54 : Nat) : Int) := not_le.mp h
      have e : ((1 : Nat) <<< 54) = 2 ^ 54 := by decide
      rw [e] at h
      rw [Nat.mod_eq_of_lt]
      omega
  simp only [hm]
  rw [if_neg (by omega)]
  have hlt : t.toNat % 2 ^ 54 < 2 ^ 54 := Nat.mod_lt _ (by norm_num)
  have hpn : p.toNat < 16 := by omega
  generalize t.toNat % 2 ^ 54 = a at *
  generalize p.toNat = b at *
  have henc := encode_eq_a1Event legacy (a, b) ⟨hlt, hpn⟩
  rw [show (a, b).1 * 1024 + (a, b).2 = a <<< 10 + b by rw [shl_eq]; norm_num] at henc
  have hline : a <<< 10 + b < 2 ^ 64 := by rw [shl_eq]; omega
  rw [← henc]
  exact packQ_line legacy _ hline

theorem writeAll_stdout (ts : List Int) (h : ∀ t ∈ ts, 0 ≤ t) (w : World) :
    writeAll none ts w = ({ w with out := w.out ++ ts.map fun t => .raw (a1Event false (t.toNat % 2 ^ 54, 1)) }, none) := by
  induction ts generalizing w with
  | nil => simp [writeAll]
  | cons t ts ih =>
    unfold writeAll
    have he := getEvent_eq moduleLegacy t 1 (h t (by simp)) (by norm_num) (by norm_num)
    rw [he]
    simp only [writeEvent]
    rw [ih (fun t ht => h t (by simp [ht]))]
    simp [moduleLegacy]

theorem put_put (w : World) (n : List Char) (a b : Option Bytes) : (w.put n a).put n b = w.put n b := by
  unfold World.put
  congr 1
  funext k
  by_cases hk : k = n <;> simp [hk]

theorem put_get (w : World) (n : List Char) (a : Option Bytes) : (w.put n a).files n = a := by simp [World.put]

theorem writeAll_file (name : List Char) (ts : List Int) (h : ∀ t ∈ ts, 0 ≤ t) (w : World) (c : Bytes) :
    writeAll (some name) ts (w.put name (some c)) =
      (w.put name (some (c ++ ts.flatMap fun t => a1Event false (t.toNat % 2 ^ 54, 1))), none) := by
  induction ts generalizing c with
  | nil => simp [writeAll]
  | cons t ts ih =>
    unfold writeAll
    rw [getEvent_eq moduleLegacy t 1 (h t (by simp)) (by norm_num) (by norm_num)]
    simp only [writeEvent, World.append, put_get, put_put, Option.getD_some]
    rw [ih (fun t ht => h t (by simp [ht]))]
    simp [moduleLegacy]

theorem showTime_read (fw : Nat) (hfw : 54 ≤ fw) (t : Nat) (ht : t < 2 ^ 54) : showTime fw (readValue .ns1 true t) = t := by
  unfold showTime readValue timeIn
  simp only [if_true, Num.val, Tsres.value]
  have e : ((t : ℚ) * ((1 : Nat) : ℚ) / 256 * ((256 : Nat) : ℚ)) = t := by push_cast; ring
  rw [e, fl_nat fw t (lt_of_lt_of_le ht (Nat.pow_le_pow_right (by norm_num) hfw))]
  exact Int.floor_natCast t

end Fp
