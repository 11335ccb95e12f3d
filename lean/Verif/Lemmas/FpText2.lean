import Verif.Lemmas.FpText
import Verif.Lemmas.FreqcdChannel
import Verif.Model.RawMain
import Verif.Props.FreqcdChannel
import Verif.Props.FreqcdMain

/-! Helper lemmas for `Verif/Props/FpText.lean`. -/
namespace Fp
open Spec

theorem split_unique {f f' r r' : List Char} {a b : Char} {S : Char → Prop} (hf : ∀ c ∈ f, ¬ S c) (hf' : ∀ c ∈ f', ¬ S c) (ha : S a)
    (hb : S b) (h : f ++ a :: r = f' ++ b :: r') : f = f' ∧ a = b ∧ r = r' := by
  induction f generalizing f' with
  | nil =>
    cases f' with
    | nil => simp at h; exact ⟨rfl, h.1, h.2⟩
    | cons c f' =>
      simp at h
      exact absurd ha (by rw [h.1]; exact hf' c (by simp))
  | cons c f ih =>
    cases f' with
    | nil =>
      simp at h
      exact absurd hb (by rw [← h.1]; exact hf c (by simp))
    | cons c' f' =>
      simp only [List.cons_append, List.cons.injEq] at h
      obtain ⟨k1, k2, k3⟩ := ih (fun x hx => hf x (by simp [hx])) (fun x hx => hf' x (by simp [hx])) h.2
      exact ⟨by rw [h.1, k1], k2, k3⟩

theorem freqText_unique {t : List Char} {d d' : ℚ ⊕ ℤ} (h : FreqText t d) (h' : FreqText t d') : d = d' := by
  obtain ⟨r, h1, h2⟩ := freqText_denotes h
  obtain ⟨r', h1', h2'⟩ := freqText_denotes h'
  have : r = r' := by
    have := decimalOf_spec h1
    rw [decimalOf_spec h1'] at this
    simpa using this.symm
  subst this
  obtain ⟨h2, h3⟩ := h2
  obtain ⟨h2', h3'⟩ := h2'
  cases d with
  | inl x =>
    cases d' with
    | inl y => rw [← (h2 x rfl).1, ← (h2' y rfl).1]
    | inr n =>
      obtain ⟨-, a1, a2⟩ := h3' n rfl
      rcases (h2 x rfl).2 with h | h
      · exact absurd h a1
      · exact absurd h a2
  | inr n =>
    cases d' with
    | inl y =>
      obtain ⟨-, a1, a2⟩ := h3 n rfl
      rcases (h2' y rfl).2 with h | h
      · exact absurd h a1
      · exact absurd h a2
    | inr n' =>
      have : (n : ℚ) = n' := by rw [← (h3 n rfl).1, ← (h3' n' rfl).1]
      rw [Int.cast_inj.mp this]

theorem byte_of_char {c : Char} (h : c.isDigit = true ∨ c = '.' ∨ c = 'e' ∨ c = '-' ∨ c = '+') :
    (UInt8.ofNat c.toNat).toNat = c.toNat := by
  have : c.toNat < 256 := by
    rcases h with h | rfl | rfl | rfl | rfl
    · have := of_decide_eq_true (Bool.and_eq_true_iff.mp h).2
      have h2 : c.toNat ≤ 57 := this
      omega
    all_goals decide
  simpa using this

theorem digit_range {c : Char} (h : c.isDigit = true) : 48 ≤ c.toNat ∧ c.toNat ≤ 57 :=
  ⟨of_decide_eq_true (Bool.and_eq_true_iff.mp h).1, of_decide_eq_true (Bool.and_eq_true_iff.mp h).2⟩

theorem foldl_bytes (ds : List Char) (h : ∀ c ∈ ds, c.isDigit = true) (a : Nat) :
    (ds.map fun c => UInt8.ofNat c.toNat).foldl (fun (n : Int) c => 10 * n + (c.toNat - 48 : Nat)) (a : Int) =
      ((ds.foldl (fun n c => 10 * n + (c.toNat - 48)) a : Nat) : Int) := by
  induction ds generalizing a with
  | nil => rfl
  | cons c ds ih =>
    rw [List.map_cons, List.foldl_cons, List.foldl_cons, byte_of_char (.inl (h c (by simp))),
      ← ih (fun x hx => h x (by simp [hx]))]
    push_cast
    rfl

theorem numeral_of_int {t : List Char} {n : ℤ} (h : IntText t n) : Numeral (textBytes t) n := by
  obtain ⟨ds, k, h1, h2, h3⟩ := h
  have hall := digits_all h2
  have hv : (textBytes ds).foldl (fun (n : Int) c => 10 * n + (c.toNat - 48 : Nat)) 0 = k := by
    have := foldl_bytes ds hall 0
    have hd := digitsVal_spec h2
    unfold digitsVal at hd
    rw [if_pos (List.all_eq_true.mpr hall)] at hd
    rw [Option.some.inj hd] at this
    exact this
  have hb : ∀ c ∈ textBytes ds, 48 ≤ c ∧ c ≤ 57 := by
    intro c hc
    obtain ⟨x, hx, rfl⟩ := List.mem_map.mp hc
    obtain ⟨a1, a2⟩ := digit_range (hall x hx)
    have := byte_of_char (.inl (hall x hx))
    rw [UInt8.le_iff_toNat_le, UInt8.le_iff_toNat_le, this]
    exact ⟨a1, a2⟩
  have hne : textBytes ds ≠ [] := by simpa [textBytes] using h1
  rcases h3 with ⟨rfl, rfl⟩ | ⟨rfl, rfl⟩
  · exact ⟨[], [], textBytes t, rfl, by simp, hne, hb, .inl ⟨rfl, hv.symm⟩⟩
  · exact ⟨[], [45], textBytes ds, rfl, by simp, hne, hb, .inr (.inr ⟨rfl, by rw [hv]⟩)⟩

/-- A byte that cannot be part of a number, after a first byte that is not white space. -/
theorem not_numeral {b : Bytes} {c x : UInt8} (h0 : b.head? = some x) (hx : ¬ (x = 32 ∨ (9 ≤ x ∧ x ≤ 13))) (hc : c ∈ b)
    (h1 : c ≠ 43) (h2 : c ≠ 45) (h3 : ¬ (48 ≤ c ∧ c ≤ 57)) : ∀ v, ¬ Numeral b v := by
  rintro v ⟨ws, sign, ds, rfl, hws, -, hds, hs⟩
  have : ws = [] := by
    cases ws with
    | nil => rfl
    | cons w ws =>
      simp at h0
      exact absurd (hws w (by simp)) (by rw [h0]; exact hx)
  subst this
  simp only [List.nil_append, List.mem_append] at hc
  rcases hc with hc | hc
  · rcases hs with ⟨rfl, -⟩ | ⟨rfl, -⟩ | ⟨rfl, -⟩ <;> simp at hc
    · exact h1 hc
    · exact h2 hc
  · exact h3 (hds c hc)

theorem head_byte {t : List Char} {x : ℚ} (h : Denotes t x) (r : List Char) :
    ∃ b, (textBytes (t ++ r)).head? = some b ∧ ¬ (b = 32 ∨ (9 ≤ b ∧ b ≤ 13)) := by
  obtain ⟨h0, h1⟩ := denotes_chars h
  obtain ⟨c, t, rfl⟩ := List.exists_cons_of_ne_nil h0
  refine ⟨UInt8.ofNat c.toNat, rfl, ?_⟩
  have hc := h1 c (by simp)
  have e := byte_of_char hc
  have hr : 43 ≤ c.toNat := by
    rcases hc with h | rfl | rfl | rfl | rfl
    · have := (digit_range h).1; omega
    all_goals decide
  rintro (h | ⟨-, h⟩)
  · rw [h] at e; simp at e; omega
  · rw [UInt8.le_iff_toNat_le, e] at h
    have : (13 : UInt8).toNat = 13 := rfl
    omega

theorem line_bytes {o : FpOutput} {l : List Char} (h : Printed o (l ++ ['\n'])) :
    (∀ c ∈ l, c.isDigit = true ∨ c = '.' ∨ c = 'e' ∨ c = '-' ∨ c = '+' ∨ c = '\t') ∧ (10 : UInt8) ∉ textBytes l ∧
      (textBytes l).takeWhile (· ≠ 0) = textBytes l := by
  have key : ∀ c ∈ l, c.isDigit = true ∨ c = '.' ∨ c = 'e' ∨ c = '-' ∨ c = '+' ∨ c = '\t' := by
    obtain ⟨t, h1, h2⟩ := h
    obtain ⟨r, hr, -⟩ := freqText_denotes h1
    have ht := (denotes_chars hr).2
    rcases h2 with ⟨-, e2⟩ | ⟨dt, t', -, e3, e2⟩
    · have e3 : l = t := List.append_cancel_right e2
      subst e3
      intro c hc
      rcases ht c hc with h | h | h | h | h <;> simp [h]
    · have e4 : l = t ++ '\t' :: t' := by
        have : l ++ ['\n'] = (t ++ '\t' :: t') ++ ['\n'] := e2
        exact List.append_cancel_right this
      subst e4
      have ht' := (denotes_chars (intText_denotes e3)).2
      intro c hc
      simp only [List.mem_append, List.mem_cons] at hc
      rcases hc with hc | hc | hc
      · rcases ht c hc with h | h | h | h | h <;> simp [h]
      · simp [hc]
      · rcases ht' c hc with h | h | h | h | h <;> simp [h]
  have kb : ∀ b ∈ textBytes l, b ≠ 10 ∧ b ≠ 0 := by
    intro b hb
    obtain ⟨c, hc, rfl⟩ := List.mem_map.mp hb
    rcases key c hc with h | rfl | rfl | rfl | rfl | rfl
    · have e := byte_of_char (.inl h)
      have := digit_range h
      constructor <;> intro h' <;> rw [h'] at e <;> simp at e <;> omega
    all_goals decide
  refine ⟨key, fun h => (kb _ h).1 rfl, ?_⟩
  rw [List.takeWhile_eq_self_iff]
  intro b hb
  simpa using (kb b hb).2

end Fp
