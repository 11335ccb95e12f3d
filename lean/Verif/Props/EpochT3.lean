import Verif.Lemmas.EpochT3

/-! # Properties of T3 files: C22 -/
namespace Fp
open Spec

/-- **C22**.  Every field of the result of `read_T3` in terms of the entries of the file: matrix cells count exactly the
pairs they stand for, `okcount` is their sum, every entry is accounted for once, and the error rate is the fraction of
equal-detector pairs among same-basis pairs, to three decimals, always in [0,1] (1/2 if there are none). -/
theorem C22_t3_tallies (tag epoch len bpe : Nat) (h1 : tag < 2 ^ 32) (h2 : epoch < 2 ^ 32) (h3 : len < 2 ^ 32)
    (h4 : bpe < 2 ^ 32) (body : Bytes) (hb : body.length % 4 = 0) (hlen : len ≤ body.length) :
    ∃ s, readT3 (t3File tag epoch len bpe body) = .ok s ∧
      s.coincMatrix.length = 16 ∧
      (∀ a < 4, ∀ b < 4, s.coincMatrix[4 * a + b]? = some (pairs (t3Entries body len) a b)) ∧
      s.okcount = s.coincMatrix.sum ∧
      len = s.okcount + (t3Entries body len).countP (fun x => !validPair x) ∧
      s.garbage0 = (t3Entries body len).countP (fun x => !oneBit (x / 16)) ∧
      s.garbage1 = (t3Entries body len).countP (fun x => !oneBit (x % 16)) ∧
      0 ≤ s.qber ∧ s.qber ≤ 1 ∧
      (sameBasisSame (t3Entries body len) + sameBasisOpposite (t3Entries body len) = 0 → s.qber = 1 / 2) ∧
      (sameBasisSame (t3Entries body len) + sameBasisOpposite (t3Entries body len) ≠ 0 →
        |s.qber - (sameBasisSame (t3Entries body len) : ℚ) /
          ((sameBasisSame (t3Entries body len) : ℚ) + sameBasisOpposite (t3Entries body len))| ≤ 1 / 2000 + 1 / 2 ^ 52) := by
  refine ⟨_, readT3_eq tag epoch len bpe h1 h2 h3 h4 body hb hlen, ?_⟩
  have hl : (t3Entries body len).length = len := by simp [t3Entries]
  have hlt : ∀ x ∈ t3Entries body len, x < 256 := by
    intro x hx; obtain ⟨i, _, rfl⟩ := List.mem_map.mp hx; exact t3Entry_lt body i
  generalize t3Entries body len = es at *
  have hm : ∀ a < 4, ∀ b < 4, (tallyOf es).coincMatrix[4 * a + b]? = some (pairs es a b) := by
    intro a ha b hb
    unfold tallyOf
    simp only []
    rw [List.getElem?_map, List.getElem?_range (by omega)]
    have e1 : (4 * a + b) / 4 = a := by omega
    have e2 : (4 * a + b) % 4 = b := by omega
    simp only [Option.map_some, e1, e2]
  have hsum : (tallyOf es).okcount = (tallyOf es).coincMatrix.sum := (pairs_sum es hlt).symm
  have hcount : len = (tallyOf es).okcount + es.countP (fun x => !validPair x) := by
    rw [← hl, List.length_eq_countP_add_countP validPair]
    unfold tallyOf
    simp
  generalize he : sameBasisSame es = er
  generalize hg : sameBasisOpposite es = gd
  by_cases hz : er + gd = 0
  · rw [if_neg (by simpa using hz)]
    refine ⟨by simp [tallyOf], hm, hsum, hcount, rfl, rfl, ?_, ?_, fun _ => rfl, fun h => absurd hz h⟩ <;>
      · unfold tallyOf; norm_num
  · rw [if_pos hz]
    have hpos : (0 : ℚ) < (er : ℚ) + gd := by exact_mod_cast Nat.pos_of_ne_zero hz
    have hq := round3_fl_bounds ((er : ℚ) / ((er + gd : Nat) : ℚ)) (div_nonneg (Nat.cast_nonneg _) (Nat.cast_nonneg _)) (by
      push_cast
      rw [div_le_one hpos]
      have : (0 : ℚ) ≤ gd := Nat.cast_nonneg _
      linarith)
    refine ⟨by simp [tallyOf], hm, hsum, hcount, rfl, rfl, hq.1, hq.2.1, fun h => absurd h hz, fun _ => ?_⟩
    have := hq.2.2
    push_cast at this ⊢
    exact this

/-- **C22**, order: files whose entries are permutations of each other give the same result. -/
theorem C22_t3_order (tag epoch len bpe tag' epoch' bpe' : Nat) (h1 : tag < 2 ^ 32) (h2 : epoch < 2 ^ 32) (h3 : len < 2 ^ 32)
    (h4 : bpe < 2 ^ 32) (h1' : tag' < 2 ^ 32) (h2' : epoch' < 2 ^ 32) (h4' : bpe' < 2 ^ 32) (body body' : Bytes)
    (hb : body.length % 4 = 0) (hlen : len ≤ body.length) (hb' : body'.length % 4 = 0) (hlen' : len ≤ body'.length)
    (hp : (t3Entries body len).Perm (t3Entries body' len)) :
    readT3 (t3File tag epoch len bpe body) = readT3 (t3File tag' epoch' len bpe' body') := by
  rw [readT3_eq tag epoch len bpe h1 h2 h3 h4 body hb hlen, readT3_eq tag' epoch' len bpe' h1' h2' h3 h4' body' hb' hlen']
  generalize t3Entries body len = es at *
  generalize t3Entries body' len = es' at *
  have hpairs : ∀ a b, pairs es a b = pairs es' a b := fun a b => hp.countP_eq _
  have ht : tallyOf es = tallyOf es' := by
    unfold tallyOf
    rw [ServiceT3.mk.injEq]
    exact ⟨List.map_congr_left fun i _ => hpairs _ _, hp.countP_eq _, hp.countP_eq _, hp.countP_eq _, rfl⟩
  have h5 : sameBasisSame es = sameBasisSame es' := by unfold sameBasisSame; simp only [hpairs]
  have h6 : sameBasisOpposite es = sameBasisOpposite es' := by unfold sameBasisOpposite; simp only [hpairs]
  rw [ht, h5, h6]

/-- Inconsistent files are refused: fewer entries than announced, or an incomplete last word. -/
theorem C22_t3_inconsistent (tag epoch len bpe : Nat) (h1 : tag < 2 ^ 32) (h2 : epoch < 2 ^ 32) (h3 : len < 2 ^ 32)
    (h4 : bpe < 2 ^ 32) (body : Bytes) :
    (body.length % 4 ≠ 0 → readT3 (t3File tag epoch len bpe body) = .error .structError) ∧
    (body.length % 4 = 0 → body.length < len → readT3 (t3File tag epoch len bpe body) = .error .indexError) := by
  obtain ⟨hd, g1, g2, g3⟩ := t3_header tag epoch len bpe h1 h2 h3 h4 body
  unfold readT3
  simp only [g1, bind, Except.bind, g3, g2]
  constructor
  · intro h
    rw [t3Detections_incomplete body h]
  · intro h hl
    rw [t3Detections_eq body h]
    simp only []
    rw [if_pos (by simpa [t3Entries] using hl)]

/-- Instance of C22: one VV, one AD, one entry with two detectors on the second side; the padding byte is not counted. -/
example : (readT3 (t3File 3 7 3 8 [0, 0x13, 0x28, 0x11])).toOption.map
    (fun s => (s.okcount, s.garbage0, s.garbage1, s.coincMatrix)) =
    some (2, 0, 1, [1, 0, 0, 0, 0, 0, 0, 1, 0, 0, 0, 0, 0, 0, 0, 0]) := by decide +kernel

end Fp
