import Verif.Spec.FpShift
import Verif.Props.FpRun
import Verif.Props.Rounded
import Verif.Props.RawA1

/-!
# C97: what the result of fpfind does not depend on
-/
namespace Fp
open Spec

theorem load_raw (rnd : ℚ → ℚ) (fuel : Nat) (args : FpMainArgs) (legacy : Bool) (a b : List (Nat × Nat)) (ha : ∀ e ∈ a, Valid e)
    (hb : ∀ e ∈ b, Valid e) :
    loadInput rnd fuel (rawArgs args legacy a b).toFpArgs = some (.ok (some (nsTimes a, nsTimes b, args.skipDuration))) := by
  have h := (C74_choice rnd (rawArgs args legacy a b).toFpArgs).2.1 _ _ _ _ (.inl rfl) rfl rfl
    (C03_modes_exact 64 (by norm_num) legacy .ns1 true a ha) (C03_modes_exact 64 (by norm_num) legacy .ns1 true b hb) fuel
  rw [h]
  have e : ∀ l : List (Nat × Nat), (l.map fun r => (readValue .ns1 true r.1, r.2)).map (·.1.val) = nsTimes l := by
    intro l
    rw [List.map_map]
    refine List.map_congr_left fun r _ => ?_
    simp [readValue, timeIn, Num.val, Tsres.value]
  rw [e, e]
  rfl

theorem nsTimes_grid (l : List (Nat × Nat)) (hl : ∀ e ∈ l, Valid e) : ∀ t ∈ nsTimes l, OnGrid t := by
  intro t ht
  obtain ⟨e, he, rfl⟩ := List.mem_map.mp ht
  refine ⟨e.1, by norm_num, ?_⟩
  have := (hl e he).1
  rw [abs_of_nonneg (by positivity)]
  have h2 : (2 : ℕ) ^ 54 < 2 ^ 61 := by norm_num
  exact_mod_cast this.trans h2

/-- The first event of two non-empty files that both have started. -/
theorem greatest_two (x y : ℚ) (xs ys : List ℚ) :
    IsGreatest {z | ∃ ts ∈ [x :: xs, y :: ys], ts.head? = some z} (max x y) := by
  constructor
  · rcases le_total x y with h | h
    · exact ⟨y :: ys, by simp, by simp [h]⟩
    · exact ⟨x :: xs, by simp, by simp [h]⟩
  · rintro z ⟨ts, hts, hz⟩
    simp only [List.mem_cons, List.not_mem_nil, or_false] at hts
    rcases hts with rfl | rfl
    · simp only [List.head?_cons, Option.some.injEq] at hz; rw [← hz]; exact le_max_left _ _
    · simp only [List.head?_cons, Option.some.injEq] at hz; rw [← hz]; exact le_max_right _ _

theorem normalize_raw (e f : Nat × Nat) (a b : List (Nat × Nat)) (ha : ∀ x ∈ e :: a, Valid x) (hb : ∀ x ∈ f :: b, Valid x) (skip : ℚ) (k : ℤ)
    (hk : skip * 10 ^ 9 = k) (hkb : |k| < 2 ^ 52) :
    normalizeTimestampsR (fl 53) (fl 64) [nsTimes (e :: a), nsTimes (f :: b)] skip true =
      .ok [fromStart ((max e.1 f.1 : ℕ) / 256 + k) (nsTimes (e :: a)), fromStart ((max e.1 f.1 : ℕ) / 256 + k) (nsTimes (f :: b))] := by
  have hmax : max ((e.1 : ℚ) / 256) ((f.1 : ℚ) / 256) = ((max e.1 f.1 : ℕ) : ℚ) / 256 := by
    rw [Nat.cast_max, ← max_div_div_right (by norm_num : (0 : ℚ) ≤ 256)]
  have hg := greatest_two ((e.1 : ℚ) / 256) ((f.1 : ℚ) / 256) (nsTimes a) (nsTimes b)
  rw [hmax] at hg
  have h := C75_normalize [nsTimes (e :: a), nsTimes (f :: b)] (by simp) (by simp [nsTimes]) (by
    intro ts hts
    simp only [List.mem_cons, List.not_mem_nil, or_false] at hts
    rcases hts with rfl | rfl
    · exact nsTimes_grid _ ha
    · exact nsTimes_grid _ hb) skip _ k hk hkb hg (by
    refine ⟨(max e.1 f.1 : ℕ) + 256 * k, by push_cast; ring, ?_⟩
    have h1 := (ha e (by simp)).1
    have h2 := (hb f (by simp)).1
    have h3 : max e.1 f.1 < 2 ^ 54 := max_lt h1 h2
    have := abs_lt.mp hkb
    rw [abs_lt]
    constructor <;> omega)
  rw [h, hk]
  rfl

/-- Shifting all times and the start together changes nothing. -/
theorem fromStart_shift (s d : ℚ) (l : List ℚ) : fromStart (s + d) (l.map (· + d)) = fromStart s l := by
  unfold fromStart
  rw [List.filter_map, List.map_map]
  congr 1
  · funext t; simp
  · congr 1; funext t; simp

theorem nsTimes_shift (a a' : List (Nat × Nat)) (c : ℤ) (h : a'.map (fun e => (e.1 : ℤ)) = a.map fun e => (e.1 : ℤ) + c) :
    nsTimes a' = (nsTimes a).map (· + (c : ℚ) / 256) := by
  have h1 : nsTimes a' = (a'.map fun e => (e.1 : ℤ)).map fun n : ℤ => (n : ℚ) / 256 := by
    simp [nsTimes]
  rw [h1, h]
  simp only [nsTimes, List.map_map]
  refine List.map_congr_left fun e _ => ?_
  simp
  ring

/-- The normalised timestamps of two files do not depend on a common shift of the clocks. -/
theorem normalize_shifted (a b a' b' : List (Nat × Nat)) (c : ℤ) (ha : ∀ e ∈ a, Valid e) (hb : ∀ e ∈ b, Valid e) (ha' : ∀ e ∈ a', Valid e)
    (hb' : ∀ e ∈ b', Valid e) (hac : a'.map (fun e => (e.1 : ℤ)) = a.map fun e => (e.1 : ℤ) + c)
    (hbc : b'.map (fun e => (e.1 : ℤ)) = b.map fun e => (e.1 : ℤ) + c) (skip : ℚ) (k : ℤ) (hk : skip * 10 ^ 9 = k) (hkb : |k| < 2 ^ 52) :
    normalizeTimestampsR (fl 53) (fl 64) [nsTimes a', nsTimes b'] skip true =
      normalizeTimestampsR (fl 53) (fl 64) [nsTimes a, nsTimes b] skip true := by
  match a, b, a', b', ha, hb, ha', hb', hac, hbc with
  | [], b, [], b', _, _, _, _, _, hbc => rfl
  | e :: a, [], e' :: a', [], _, _, _, _, _, _ => rfl
  | e :: a, f :: b, e' :: a', f' :: b', ha, hb, ha', hb', hac, hbc =>
    rw [normalize_raw e f a b ha hb skip k hk hkb, normalize_raw e' f' a' b' ha' hb' skip k hk hkb, nsTimes_shift _ _ c hac,
      nsTimes_shift _ _ c hbc]
    simp only [List.map_cons, List.cons.injEq] at hac hbc
    have hm : ((max e'.1 f'.1 : ℕ) : ℚ) = ((max e.1 f.1 : ℕ) : ℚ) + c := by
      have : ((max e'.1 f'.1 : ℕ) : ℤ) = ((max e.1 f.1 : ℕ) : ℤ) + c := by
        have := hac.1
        have := hbc.1
        omega
      exact_mod_cast this
    rw [hm, show (((max e.1 f.1 : ℕ) : ℚ) + c) / 256 + (k : ℚ) = ((max e.1 f.1 : ℕ) : ℚ) / 256 + k + (c : ℚ) / 256 by ring,
      fromStart_shift, fromStart_shift]
  | [], _, _ :: _, _, _, _, _, _, hac, _ => simp at hac
  | _ :: _, _, [], _, _, _, _, _, hac, _ => simp at hac
  | _ :: _, [], _ :: _, _ :: _, _, _, _, _, _, hbc => simp at hbc
  | _ :: _, _ :: _, _ :: _, [], _, _, _, _, _, hbc => simp at hbc

theorem fromStart_early (s : ℚ) (p l : List (Nat × Nat)) (n : Nat) (hp : ∀ x ∈ p, x.1 < n) (hs : (n : ℚ) / 256 ≤ s) :
    fromStart s (nsTimes (p ++ l)) = fromStart s (nsTimes l) := by
  unfold fromStart nsTimes
  rw [List.map_append, List.filter_append, List.map_append]
  have : (List.map (fun e : Nat × Nat => (e.1 : ℚ) / 256) p).filter (fun t => decide (s ≤ t)) = [] := by
    rw [List.filter_eq_nil_iff]
    intro t ht
    obtain ⟨x, hx, rfl⟩ := List.mem_map.mp ht
    have h : (x.1 : ℚ) < n := by exact_mod_cast hp x hx
    have h' : (x.1 : ℚ) / 256 < (n : ℚ) / 256 := by linarith
    simpa using h'.trans_le hs
  rw [this]
  rfl

theorem early_start (p a : List (Nat × Nat)) (e f : Nat × Nat) (hp : ∀ x ∈ p, Valid x ∧ x.1 < f.1) (ha : ∀ x ∈ e :: a, Valid x)
    (hef : e.1 ≤ f.1) : ∃ g c, p ++ e :: a = g :: c ∧ g.1 ≤ f.1 ∧ ∀ x ∈ g :: c, Valid x := by
  cases p with
  | nil => exact ⟨e, a, rfl, hef, ha⟩
  | cons g p =>
    refine ⟨g, p ++ e :: a, rfl, (hp g (by simp)).2.le, ?_⟩
    intro x hx
    rw [← List.cons_append] at hx
    rcases List.mem_append.mp hx with h | h
    · exact (hp x h).1
    · exact ha x h

theorem early_reference (p a b : List (Nat × Nat)) (e f : Nat × Nat) (hp : ∀ x ∈ p, Valid x ∧ x.1 < f.1) (ha : ∀ x ∈ e :: a, Valid x)
    (hb : ∀ x ∈ f :: b, Valid x) (hef : e.1 ≤ f.1) (skip : ℚ) (k : ℤ) (hk : skip * 10 ^ 9 = k) (hk0 : 0 ≤ k) (hkb : k < 2 ^ 52) :
    normalizeTimestampsR (fl 53) (fl 64) [nsTimes (p ++ e :: a), nsTimes (f :: b)] skip true =
      normalizeTimestampsR (fl 53) (fl 64) [nsTimes (e :: a), nsTimes (f :: b)] skip true := by
  obtain ⟨g, c, hg, hgf, hv⟩ := early_start p a e f hp ha hef
  have hka : |k| < 2 ^ 52 := by rwa [abs_of_nonneg hk0]
  have hs : (f.1 : ℚ) / 256 ≤ (f.1 : ℚ) / 256 + k := by
    have : (0 : ℚ) ≤ k := by exact_mod_cast hk0
    linarith
  rw [normalize_raw e f a b ha hb skip k hk hka, hg, normalize_raw g f c b hv hb skip k hk hka, max_eq_right hgf, max_eq_right hef, ← hg,
    fromStart_early _ p (e :: a) f.1 (fun x hx => (hp x hx).2) hs]

theorem early_target (p a b : List (Nat × Nat)) (e f : Nat × Nat) (hp : ∀ x ∈ p, Valid x ∧ x.1 < f.1) (ha : ∀ x ∈ e :: a, Valid x)
    (hb : ∀ x ∈ f :: b, Valid x) (hef : e.1 ≤ f.1) (skip : ℚ) (k : ℤ) (hk : skip * 10 ^ 9 = k) (hk0 : 0 ≤ k) (hkb : k < 2 ^ 52) :
    normalizeTimestampsR (fl 53) (fl 64) [nsTimes (f :: b), nsTimes (p ++ e :: a)] skip true =
      normalizeTimestampsR (fl 53) (fl 64) [nsTimes (f :: b), nsTimes (e :: a)] skip true := by
  obtain ⟨g, c, hg, hgf, hv⟩ := early_start p a e f hp ha hef
  have hka : |k| < 2 ^ 52 := by rwa [abs_of_nonneg hk0]
  have hs : (f.1 : ℚ) / 256 ≤ (f.1 : ℚ) / 256 + k := by
    have : (0 : ℚ) ≤ k := by exact_mod_cast hk0
    linarith
  rw [normalize_raw f e b a hb ha skip k hk hka, hg, normalize_raw f g b c hb hv skip k hk hka, max_eq_left hgf, max_eq_left hef, ← hg,
    fromStart_early _ p (e :: a) f.1 (fun x hx => (hp x hx).2) hs]

/-- **C97**, timestamp files and a skipped duration of a whole number of nanoseconds: what fpfind prints (or the error it
raises) depends on the event times up to a common shift only; neither the detector patterns nor the word order matter. -/
theorem C97_invariant_partial (env : NumEnv) (hr : env.rnd = fl 53) (hra : env.rndA = fl 64) (fuel : Nat) (args : FpMainArgs) (l l' : Bool)
    (a b a' b' : List (Nat × Nat)) (c : ℤ) (ha : ∀ e ∈ a, Valid e) (hb : ∀ e ∈ b, Valid e) (ha' : ∀ e ∈ a', Valid e)
    (hb' : ∀ e ∈ b', Valid e) (hac : a'.map (fun e => (e.1 : ℤ)) = a.map fun e => (e.1 : ℤ) + c)
    (hbc : b'.map (fun e => (e.1 : ℤ)) = b.map fun e => (e.1 : ℤ) + c) (k : ℤ) (hk : args.skipDuration * 10 ^ 9 = k) (hkb : |k| < 2 ^ 52) :
    fpMain env fuel (rawArgs args l' a' b') = fpMain env fuel (rawArgs args l a b) := by
  unfold fpMain mainInput
  rw [load_raw _ _ _ _ _ _ ha hb, load_raw _ _ _ _ _ _ ha' hb']
  simp only [hr, hra]
  rw [normalize_shifted a b a' b' c ha hb ha' hb' hac hbc _ k hk hkb]
  rfl

/-- A skipped duration of slightly more than 1/256 ns, a double. -/
def oddSkip : ℚ := fl 53 ((1 / 256 + 1 / 2 ^ 40) / 10 ^ 9)

/-- **C97** fails for other skipped durations: the start is rounded, and by an amount that depends on the absolute time.  Two files
with the same two events give an IndexError in any environment, but 2^45 ns later the search is started; in the environment of
`C88_example` it then ends with another error. -/
theorem C97_skip_violated :
    oddSkip = fl 53 oddSkip ∧
    (∀ e ∈ [((0 : Nat), (1 : Nat)), (1, 1), (2 ^ 53, 1), (2 ^ 53 + 1, 1)], Valid e) ∧
    (∀ (env : NumEnv) (fuel : Nat) (args : FpMainArgs), env.rnd = fl 53 → env.rndA = fl 64 → args.skipDuration = oddSkip →
      fpMain env fuel (rawArgs args false [(0, 1), (1, 1)] [(0, 1), (1, 1)]) = some (.error .indexError) ∧
      mainInput env.rnd env.rndA fuel (rawArgs args false [(2 ^ 53, 1), (2 ^ 53 + 1, 1)] [(2 ^ 53, 1), (2 ^ 53 + 1, 1)]).toFpArgs =
        some (.ok (some [[0], [0]]))) ∧
    fpMain fpDemoEnv 25 (rawArgs { fpDemoArgs false false 0 with skipDuration := oddSkip } false [(2 ^ 53, 1), (2 ^ 53 + 1, 1)]
      [(2 ^ 53, 1), (2 ^ 53 + 1, 1)]) = some (.error .valueError) := by
  refine ⟨by decide +kernel, by simp [Valid], ?_, by decide +kernel⟩
  intro env fuel args h1 h2 h3
  constructor
  · unfold fpMain mainInput
    rw [load_raw _ _ _ _ _ _ (by simp [Valid]) (by simp [Valid])]
    simp only [h1, h2, h3]
    rw [show normalizeTimestampsR (fl 53) (fl 64) [nsTimes [(0, 1), (1, 1)], nsTimes [(0, 1), (1, 1)]] oddSkip true = .ok [[], []] by
      decide +kernel]
    rfl
  · unfold mainInput
    rw [load_raw _ _ _ _ _ _ (by simp [Valid]) (by simp [Valid])]
    simp only [h1, h2, h3]
    rw [show normalizeTimestampsR (fl 53) (fl 64) [nsTimes [(2 ^ 53, 1), (2 ^ 53 + 1, 1)], nsTimes [(2 ^ 53, 1), (2 ^ 53 + 1, 1)]] oddSkip
      true = .ok [[0], [0]] by decide +kernel]
    rfl

/-- Instance of `C97_invariant_partial`: the files of `C88_example_plain`, a million ns later, with other detectors and in the
other word order, give the same line. -/
example : fpMain fpDemoEnv 25 (rawArgs (fpDemoArgs false false 0) false
      [(256000000, 2), (512000000, 8), (512001280, 4), (768000000, 4)]
      [(256000000, 1), (256001280, 8), (512000000, 8), (512001024, 4), (768000000, 15)]) =
    some (.ok (some "6.00000799999556e-06\t-6\n".toList)) := by
  rw [C97_invariant_partial fpDemoEnv rfl rfl 25 (fpDemoArgs false false 0) true false
    [(0, 1), (256000000, 1), (256001280, 1), (512000000, 1)] [(0, 1), (1280, 1), (256000000, 1), (256001024, 1), (512000000, 1)] _ _
    256000000 (by simp [Valid]) (by simp [Valid]) (by simp [Valid]) (by simp [Valid]) (by decide) (by decide) 0 (by decide +kernel)
    (by decide)]
  decide +kernel

/-- **C97**, events before both files have started: reference events before the first target event are ignored, as long as the
reference has started by then. -/
theorem C97_early_reference (env : NumEnv) (hr : env.rnd = fl 53) (hra : env.rndA = fl 64) (fuel : Nat) (args : FpMainArgs) (l : Bool)
    (p a b : List (Nat × Nat)) (e f : Nat × Nat) (hp : ∀ x ∈ p, Valid x ∧ x.1 < f.1) (ha : ∀ x ∈ e :: a, Valid x)
    (hb : ∀ x ∈ f :: b, Valid x) (hef : e.1 ≤ f.1) (k : ℤ) (hk : args.skipDuration * 10 ^ 9 = k) (hk0 : 0 ≤ k) (hkb : k < 2 ^ 52) :
    fpMain env fuel (rawArgs args l (p ++ e :: a) (f :: b)) = fpMain env fuel (rawArgs args l (e :: a) (f :: b)) := by
  have hall : ∀ x ∈ p ++ e :: a, Valid x := by
    intro x hx
    rcases List.mem_append.mp hx with h | h
    · exact (hp x h).1
    · exact ha x h
  unfold fpMain mainInput
  rw [load_raw _ _ _ _ _ _ hall hb, load_raw _ _ _ _ _ _ ha hb]
  simp only [hr, hra]
  rw [early_reference p a b e f hp ha hb hef _ k hk hk0 hkb]
  rfl

/-- **C97**, the same for target events before the first reference event. -/
theorem C97_early_target (env : NumEnv) (hr : env.rnd = fl 53) (hra : env.rndA = fl 64) (fuel : Nat) (args : FpMainArgs) (l : Bool)
    (p a b : List (Nat × Nat)) (e f : Nat × Nat) (hp : ∀ x ∈ p, Valid x ∧ x.1 < f.1) (ha : ∀ x ∈ e :: a, Valid x)
    (hb : ∀ x ∈ f :: b, Valid x) (hef : e.1 ≤ f.1) (k : ℤ) (hk : args.skipDuration * 10 ^ 9 = k) (hk0 : 0 ≤ k) (hkb : k < 2 ^ 52) :
    fpMain env fuel (rawArgs args l (f :: b) (p ++ e :: a)) = fpMain env fuel (rawArgs args l (f :: b) (e :: a)) := by
  have hall : ∀ x ∈ p ++ e :: a, Valid x := by
    intro x hx
    rcases List.mem_append.mp hx with h | h
    · exact (hp x h).1
    · exact ha x h
  unfold fpMain mainInput
  rw [load_raw _ _ _ _ _ _ hb hall, load_raw _ _ _ _ _ _ hb ha]
  simp only [hr, hra]
  rw [early_target p a b e f hp ha hb hef _ k hk hk0 hkb]
  rfl

/-- Instance of `C97_early_reference`: two more reference events before the first target event of the example above. -/
example : (∀ x ∈ [((5 : Nat), (1 : Nat)), (9, 2)], Valid x ∧ x.1 < (256000000, 1).1) ∧
    fpMain fpDemoEnv 25 (rawArgs (fpDemoArgs false false 0) false
      ([(5, 1), (9, 2)] ++ [(256000000, 2), (512000000, 8), (512001280, 4), (768000000, 4)])
      [(256000000, 1), (256001280, 8), (512000000, 8), (512001024, 4), (768000000, 15)]) =
    some (.ok (some "6.00000799999556e-06\t-6\n".toList)) := ⟨by simp [Valid], by decide +kernel⟩

end Fp
