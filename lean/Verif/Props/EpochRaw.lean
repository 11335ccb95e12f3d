import Verif.Spec.EpochRaw
import Verif.Props.EpochNames
import Verif.Props.EpochBits
import Verif.Props.FpMain
import Verif.Props.FpShift

/-!
# C100: epoch files and timestamp files give fpfind the same events
-/
namespace Fp
open Spec

theorem filter_next (l : List (Nat × Nat)) (k : Nat × Nat → Nat) (hs : l.Pairwise fun a b => k a ≤ k b) (lo c : Nat) (hlo : lo ≤ c) :
    (l.filter fun x => lo ≤ k x ∧ k x < c) ++ (l.filter fun x => k x = c) = l.filter fun x => lo ≤ k x ∧ k x < c + 1 := by
  induction l with
  | nil => rfl
  | cons x l ih =>
    have hx := (List.pairwise_cons.mp hs).1
    have ih := ih (List.pairwise_cons.mp hs).2
    rcases Nat.lt_trichotomy (k x) c with h | h | h
    · by_cases h2 : lo ≤ k x
      · rw [List.filter_cons_of_pos (by simp; omega), List.filter_cons_of_neg (by simp; omega), List.filter_cons_of_pos (by simp; omega),
          List.cons_append, ih]
      · rw [List.filter_cons_of_neg (by simp; omega), List.filter_cons_of_neg (by simp; omega), List.filter_cons_of_neg (by simp; omega), ih]
    · have e : (l.filter fun x => lo ≤ k x ∧ k x < c) = [] := by
        rw [List.filter_eq_nil_iff]
        intro y hy
        have := hx y hy
        simp only [decide_eq_true_eq]
        omega
      rw [e, List.nil_append] at ih
      rw [List.filter_cons_of_neg (by simp; omega), List.filter_cons_of_pos (by simp; omega), List.filter_cons_of_pos (by simp; omega), e,
        List.nil_append, ih]
    · rw [List.filter_cons_of_neg (by simp; omega), List.filter_cons_of_neg (by simp; omega), List.filter_cons_of_neg (by simp; omega), ih]

theorem flatMap_eventsOf (evs : List (Nat × Nat)) (hs : evs.Pairwise fun a b => a.1 ≤ b.1) (lo n : Nat) :
    (List.range n).flatMap (fun i => eventsOf (lo + i) evs) = evs.filter fun x => lo ≤ x.1 / 2 ^ 37 ∧ x.1 / 2 ^ 37 < lo + n := by
  have hs' : evs.Pairwise fun a b => a.1 / 2 ^ 37 ≤ b.1 / 2 ^ 37 := hs.imp fun h => Nat.div_le_div_right h
  induction n with
  | zero =>
    symm
    rw [List.range_zero, List.flatMap_nil, List.filter_eq_nil_iff]
    intro x _
    simp only [decide_eq_true_eq]
    omega
  | succ n ih =>
    rw [List.range_succ, List.flatMap_append, ih]
    simp only [List.flatMap_cons, List.flatMap_nil, List.append_nil]
    exact filter_next evs (fun x => x.1 / 2 ^ 37) hs' lo (lo + n) (by omega)

theorem flatMap_times (evs : List (Nat × Nat)) (hs : evs.Pairwise fun a b => a.1 ≤ b.1) (lo n : Nat) :
    (List.range n).flatMap (fun i => nsTimes ((eventsOf (lo + i) evs).map fun x => (x.1 % 2 ^ 54, x.2))) = nsTimes (eventsFrom lo n evs) := by
  unfold eventsFrom
  rw [← flatMap_eventsOf evs hs lo n, nsTimes, List.map_flatMap, List.map_flatMap]
  rfl

/-- The events of a T1 file as read. -/
theorem t1_times (dir : List Char → Option Bytes) (evs : List (Nat × Nat)) (e : Nat) (he : e < 2 ^ 32) (file : Bytes)
    (hdir : dir (int2epoch (e : Int)) = some file) (h : IsT1 e evs file) (hp : ∀ x ∈ evs, x.2 < 16)
    (hz : ∀ x ∈ evs, ¬ (x.1 % 2 ^ 54 = 0 ∧ x.2 = 0)) (hlen : evs.length < 2 ^ 32) :
    ∃ ts, EpochTimes dir true (e : Int) ts ∧ ts.map ENum.val = nsTimes ((eventsOf e evs).map fun x => (x.1 % 2 ^ 54, x.2)) := by
  obtain ⟨name, hw⟩ := h
  have he' : (((e : Nat) : Int) % 2 ^ 32).toNat = e := by omega
  have hmem : ∀ x ∈ eventsOf e evs, x ∈ evs ∧ x.1 / 2 ^ 37 = e := by
    intro x hx
    have := List.mem_filter.mp hx
    exact ⟨this.1, by simpa using this.2⟩
  have hev : ∀ x ∈ (eventsOf e evs).map fun x => (x.1 % 2 ^ 37, x.2), ∃ y ∈ evs, y.1 / 2 ^ 37 = e ∧ x = (y.1 % 2 ^ 37, y.2) := by
    intro x hx
    obtain ⟨y, hy, rfl⟩ := List.mem_map.mp hx
    exact ⟨y, (hmem y hy).1, (hmem y hy).2, rfl⟩
  have ht : ∀ y : Nat × Nat, y.1 / 2 ^ 37 = e → t1Time e (y.1 % 2 ^ 37) = y.1 % 2 ^ 54 := by
    intro y hy
    unfold t1Time
    omega
  obtain ⟨name', file', hw', hr⟩ := C14_t1_roundtrip_partial (e : Int) ((eventsOf e evs).map fun x => (x.1 % 2 ^ 37, x.2)) (by
      intro x hx
      obtain ⟨y, hy, -, rfl⟩ := hev x hx
      exact ⟨Nat.mod_lt _ (by norm_num), hp y hy⟩) (by
      rw [List.length_map]
      exact lt_of_le_of_lt (List.length_filter_le _ _) hlen) (by
      rw [he']
      intro x hx hc
      obtain ⟨y, hy, hye, rfl⟩ := hev x hx
      obtain ⟨c1, c2, c3⟩ := hc
      refine hz y hy ⟨?_, c3⟩
      rw [← ht y hye, t1Time]
      simp only at c2
      omega) .ns1 true
  rw [List.map_map, List.map_map] at hw'
  have hwe : (.ok (name', file', none) : Except PyErr (List Char × Bytes × Option PyErr)) = .ok (name, file, none) := by
    rw [← hw', ← hw]
    rfl
  have hfile : file' = file := by
    simp only [Except.ok.injEq, Prod.mk.injEq] at hwe
    exact hwe.2.1
  rw [hfile, he'] at hr
  refine ⟨_, ⟨file, _, hdir, hr, rfl⟩, ?_⟩
  unfold nsTimes
  rw [List.map_map, List.map_map, List.map_map, List.map_map]
  refine List.map_congr_left fun x hx => ?_
  simp only [Function.comp, eValue, if_true, ENum.val, timeIn, Tsres.value, ht x (hmem x hx).2]
  simp

/-- The events of a T2 file as read. -/
theorem t2_times (dir : List Char → Option Bytes) (evs : List (Nat × Nat)) (e : Nat) (he : e < 2 ^ 32) (file : Bytes)
    (hdir : dir (int2epoch (e : Int)) = some file) (h : IsT2 e evs file) :
    ∃ ts, EpochTimes dir false (e : Int) ts ∧ ts.map ENum.val = nsTimes ((eventsOf e evs).map fun x => (x.1 % 2 ^ 54, x.2)) := by
  obtain ⟨tag, len, tw, bb, proto, es, body, rfl, a1, a2, a3, a4, a5, a6, a7, a8, a9, a10⟩ := h
  have hsum : ∀ x ∈ runningSums (e % 2 ^ 17 * 2 ^ 32) es, x.1 < if false = true then 2 ^ 49 else 2 ^ 53 := by
    intro x hx
    have : (32 * x.1, x.2) ∈ (eventsOf e evs).map (fun x => (x.1 % 2 ^ 54, x.2)) := by
      rw [a10]
      exact List.mem_map_of_mem hx
    obtain ⟨y, -, hy⟩ := List.mem_map.mp this
    have h1 := (Prod.mk.inj hy).1
    have h2 : y.1 % 2 ^ 54 < 2 ^ 54 := Nat.mod_lt _ (by norm_num)
    simp
    omega
  have hr := C18_t2_decode tag e len tw bb proto a1 he a2 a3 a4 a5 a6 es a7 a8 body a9 false hsum .ns1
  refine ⟨_, ⟨_, _, hdir, hr, rfl⟩, ?_⟩
  rw [a10]
  unfold nsTimes
  rw [List.map_map, List.map_map, List.map_map]
  refine List.map_congr_left fun x _ => ?_
  simp only [Function.comp, ENum.val, Tsres.value, Bool.false_eq_true, if_false]
  push_cast
  ring

/-- Files of consecutive epochs, each with the times of the events of its epoch. -/
theorem load_times (dir : List Char → Option Bytes) (isT1 : Bool) (evs : List (Nat × Nat)) (hs : evs.Pairwise fun a b => a.1 ≤ b.1)
    (first : List Char) (f : Nat) (hf : epoch2int first = .ok (f : Int)) (skip num : Nat)
    (h : ∀ i < num, ∃ ts, EpochTimes dir isT1 ((f + skip + i : Nat) : Int) ts ∧
      ts.map ENum.val = nsTimes ((eventsOf (f + skip + i) evs).map fun x => (x.1 % 2 ^ 54, x.2))) :
    ∃ ts, Returns (fun fuel => getTimestamp fuel dir isT1 first skip num) (.ok ts) ∧ ts.map ENum.val = nsTimes (eventsFrom (f + skip) num evs) := by
  classical
  choose! ts h1 h2 using h
  refine ⟨_, C25_concatenation dir isT1 first f skip num hf ts (fun i hi => by have := h1 i hi; push_cast at this; exact this), ?_⟩
  rw [← flatMap_times evs hs, List.map_flatMap]
  rw [List.flatMap_def, List.flatMap_def]
  congr 1
  exact List.map_congr_left fun i hi => h2 i (List.mem_range.mp hi)

theorem eventsFrom_valid (lo n : Nat) (evs : List (Nat × Nat)) (hp : ∀ x ∈ evs, x.2 < 16) : ∀ x ∈ eventsFrom lo n evs, Valid x := by
  intro x hx
  obtain ⟨y, hy, rfl⟩ := List.mem_map.mp hx
  exact ⟨Nat.mod_lt _ (by norm_num), hp y (List.mem_filter.mp hy).1⟩

/-- **C100**, T1 files: a stream of events in order, cut into epochs and written with `write_T1`, is loaded by `get_timestamp` with
the times that `read_a1` gives for a timestamp file of the same events. -/
theorem C100_t1 (dir : List Char → Option Bytes) (evs : List (Nat × Nat)) (hs : evs.Pairwise fun a b => a.1 ≤ b.1)
    (hp : ∀ x ∈ evs, x.2 < 16) (hz : ∀ x ∈ evs, ¬ (x.1 % 2 ^ 54 = 0 ∧ x.2 = 0)) (hlen : evs.length < 2 ^ 32) (first : List Char) (f : Nat)
    (hf : epoch2int first = .ok (f : Int)) (skip num : Nat) (hb : f + skip + num ≤ 2 ^ 32)
    (hdir : ∀ i < num, ∃ file, dir (int2epoch ((f + skip + i : Nat) : Int)) = some file ∧ IsT1 (f + skip + i) evs file) (legacy : Bool) :
    ∃ ts raw, Returns (fun fuel => getTimestamp fuel dir true first skip num) (.ok ts) ∧
      readA1 64 legacy .ns1 true ((eventsFrom (f + skip) num evs).flatMap (a1Event legacy)) = .ok raw ∧
      ts.map ENum.val = raw.map (·.1.val) := by
  obtain ⟨ts, h1, h2⟩ := load_times dir true evs hs first f hf skip num (by
    intro i hi
    obtain ⟨file, g1, g2⟩ := hdir i hi
    exact t1_times dir evs _ (by omega) file g1 g2 hp hz hlen)
  refine ⟨ts, _, h1, C03_modes_exact 64 (by norm_num) legacy .ns1 true _ (eventsFrom_valid _ _ _ hp), ?_⟩
  rw [h2, List.map_map]
  refine List.map_congr_left fun x _ => ?_
  simp [readValue, timeIn, Num.val, Tsres.value]

/-- **C100**, T2 files: the same for events at multiples of 125 ps. -/
theorem C100_t2 (dir : List Char → Option Bytes) (evs : List (Nat × Nat)) (hs : evs.Pairwise fun a b => a.1 ≤ b.1)
    (hp : ∀ x ∈ evs, x.2 < 16) (first : List Char) (f : Nat) (hf : epoch2int first = .ok (f : Int)) (skip num : Nat)
    (hb : f + skip + num ≤ 2 ^ 32)
    (hdir : ∀ i < num, ∃ file, dir (int2epoch ((f + skip + i : Nat) : Int)) = some file ∧ IsT2 (f + skip + i) evs file) (legacy : Bool) :
    ∃ ts raw, Returns (fun fuel => getTimestamp fuel dir false first skip num) (.ok ts) ∧
      readA1 64 legacy .ns1 true ((eventsFrom (f + skip) num evs).flatMap (a1Event legacy)) = .ok raw ∧
      ts.map ENum.val = raw.map (·.1.val) := by
  obtain ⟨ts, h1, h2⟩ := load_times dir false evs hs first f hf skip num (by
    intro i hi
    obtain ⟨file, g1, g2⟩ := hdir i hi
    exact t2_times dir evs _ (by omega) file g1 g2)
  refine ⟨ts, _, h1, C03_modes_exact 64 (by norm_num) legacy .ns1 true _ (eventsFrom_valid _ _ _ hp), ?_⟩
  rw [h2, List.map_map]
  refine List.map_congr_left fun x _ => ?_
  simp [readValue, timeIn, Num.val, Tsres.value]

theorem epochTimes_unique {dir : List Char → Option Bytes} {isT1 : Bool} {e : Int} {ts ts' : List ENum} (h : EpochTimes dir isT1 e ts)
    (h' : EpochTimes dir isT1 e ts') : ts = ts' := by
  obtain ⟨file, evs, a1, ⟨N, a2⟩, a3⟩ := h
  obtain ⟨file', evs', b1, ⟨N', b2⟩, b3⟩ := h'
  have e1 : file = file' := Option.some.inj (a1.symm.trans b1)
  subst e1
  have e2 := (a2 (max N N') (le_max_left _ _)).symm.trans (b2 (max N N') (le_max_right _ _))
  rw [a3, b3, Except.ok.inj (Option.some.inj e2)]

theorem epoch_lists {dir : List Char → Option Bytes} {isT1 : Bool} {lo num : Nat} {evs : List (Nat × Nat)} (hs : evs.Pairwise fun a b => a.1 ≤ b.1)
    {ts : Nat → List ENum} (h1 : ∀ i < num, EpochTimes dir isT1 ((lo + i : Nat) : Int) (ts i))
    (h2 : ∀ i < num, ∃ ts, EpochTimes dir isT1 ((lo + i : Nat) : Int) ts ∧
      ts.map ENum.val = nsTimes ((eventsOf (lo + i) evs).map fun x => (x.1 % 2 ^ 54, x.2))) :
    ((List.range num).flatMap ts).map ENum.val = nsTimes (eventsFrom lo num evs) := by
  rw [← flatMap_times evs hs, List.map_flatMap, List.flatMap_def, List.flatMap_def]
  congr 1
  refine List.map_congr_left fun i hi => ?_
  obtain ⟨ts', g1, g2⟩ := h2 i (List.mem_range.mp hi)
  rw [epochTimes_unique (h1 i (List.mem_range.mp hi)) g1, g2]

/-- **C100**, fpfind: with directories of epoch files it prints the same (or raises the same error) as with two timestamp files of
the events of the epochs in use, without skipping. -/
theorem C100_fpfind (env : NumEnv) (args : FpMainArgs) (d1 d2 : EpochDir) (h1 : args.sendfiles = some d1) (h2 : args.t1files = some d2)
    (e1 e2 : List Nat) (ok1 : EpochDirOk d1 false e1) (ok2 : EpochDirOk d2 true e2) (first : Option Nat)
    (hf : args.firstEpoch.map epoch2int = first.map fun v : Nat => .ok (v : Int)) (m n : Nat) (hrun : FirstRun e1 e2 first m n)
    (skip num : Nat) (hsk : args.skipEpochs = skip) (hreq : args.requiredEpochs env.rnd = ((skip + num : Nat) : Int)) (hen : skip + num ≤ n)
    (evs1 evs2 : List (Nat × Nat)) (hs1 : evs1.Pairwise fun a b => a.1 ≤ b.1) (hs2 : evs2.Pairwise fun a b => a.1 ≤ b.1)
    (hp1 : ∀ x ∈ evs1, x.2 < 16) (hp2 : ∀ x ∈ evs2, x.2 < 16) (hz : ∀ x ∈ evs2, ¬ (x.1 % 2 ^ 54 = 0 ∧ x.2 = 0))
    (hlen : evs2.length < 2 ^ 32) (hb : m + skip + num ≤ 2 ^ 32)
    (hd1 : ∀ i < num, ∃ file, d1.file (int2epoch ((m + skip + i : Nat) : Int)) = some file ∧ IsT2 (m + skip + i) evs1 file)
    (hd2 : ∀ i < num, ∃ file, d2.file (int2epoch ((m + skip + i : Nat) : Int)) = some file ∧ IsT1 (m + skip + i) evs2 file) (legacy : Bool) :
    ∃ N, ∀ fuel ≥ N, fpMain env fuel args = fpMain env fuel
      (rawArgs { args with skipDuration := 0 } legacy (eventsFrom (m + skip) num evs1) (eventsFrom (m + skip) num evs2)) := by
  obtain ⟨tsA, tsB, hA, hB, N, hN⟩ := C74_epochs env.rnd args.toFpArgs d1 d2 h1 h2 e1 e2 ok1 ok2 first hf m n hrun skip num hsk hreq hen
  have eA := epoch_lists hs1 hA fun i hi => by
    obtain ⟨file, g1, g2⟩ := hd1 i hi
    exact t2_times d1.file evs1 _ (by omega) file g1 g2
  have eB := epoch_lists hs2 hB fun i hi => by
    obtain ⟨file, g1, g2⟩ := hd2 i hi
    exact t1_times d2.file evs2 _ (by omega) file g1 g2 hp2 hz hlen
  refine ⟨N, fun fuel hfuel => ?_⟩
  have e1 : loadInput env.rnd fuel args.toFpArgs = some (.ok (some (nsTimes (eventsFrom (m + skip) num evs1), nsTimes (eventsFrom (m + skip) num evs2), 0))) := by
    have := hN fuel hfuel
    simp only [eA, eB] at this
    exact this
  unfold fpMain mainInput
  rw [e1, load_raw _ _ _ _ _ _ (eventsFrom_valid _ _ _ hp1) (eventsFrom_valid _ _ _ hp2)]
  rfl

/-- Instance of C100: two epochs, 5 and 6; the events of epoch 5 and the file of epoch 6. -/
example : eventsFrom 5 2 [(4 * 2 ^ 37 + 9, 1), (5 * 2 ^ 37 + 320, 1), (6 * 2 ^ 37, 2), (6 * 2 ^ 37 + 3, 8), (7 * 2 ^ 37, 1)] =
      [(5 * 2 ^ 37 + 320, 1), (6 * 2 ^ 37, 2), (6 * 2 ^ 37 + 3, 8)] ∧
    IsT1 6 [(4 * 2 ^ 37 + 9, 1), (5 * 2 ^ 37 + 320, 1), (6 * 2 ^ 37, 2), (6 * 2 ^ 37 + 3, 8), (7 * 2 ^ 37, 1)] (t1File 6 [(0, 2), (3, 8)]) ∧
    IsT2 5 [(4 * 2 ^ 37 + 9, 1), (5 * 2 ^ 37 + 320, 1), (6 * 2 ^ 37, 2), (6 * 2 ^ 37 + 3, 8), (7 * 2 ^ 37, 1)]
      (t2File 2 5 1 8 4 0 (leBytes 4 (10 * 2 ^ 24 + 1 * 2 ^ 20 + 1 * 2 ^ 12))) := by
  refine ⟨by decide +kernel, ⟨int2epoch 6, ?_⟩, 2, 1, 8, 4, 0, [⟨false, 10, 1⟩], _, rfl, by norm_num, by norm_num, by norm_num, by norm_num, by norm_num,
    by norm_num, ?_, Or.inr rfl, ?_, by decide +kernel⟩
  · exact C14_t1_file 6 [(0, 2), (3, 8)] (by simp [T1Valid]) (by decide)
  · intro x hx
    rw [List.mem_singleton.mp hx]
    exact ⟨by norm_num, by simp⟩
  · unfold Starts
    decide +kernel

end Fp
