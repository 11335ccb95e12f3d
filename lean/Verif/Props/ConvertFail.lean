import Verif.Lemmas.ConvertFail
import Verif.Props.RawMain

/-! # C117: conversions that fail -/
namespace Fp
open Spec

/-- **C117**: whatever the input is, a streaming conversion that ends with an exception has written exactly what converting a
beginning of the file (whole batches of 100000 events) gives without an exception, and has changed no other file. -/
theorem C117_beginning (fw : Nat) (args : TsArgs) (files : Files) (content : Bytes) (out : List Char)
    (hin : files args.infile = some content) (hout : args.outfile = some out) (hne : out ≠ []) (hdiff : args.infile ≠ out)
    (hprint : args.print = false) (hmem : args.inmemory = false) (htext : args.inFmt ≠ .a1 → PlainText content)
    (e : PyErr) (herr : (tsMain fw args files).err = some e) :
    ∃ n written, n * (100000 * recordSize args.inFmt) < content.length ∧
      tsMain fw args files = ⟨files.set out written, none, some e⟩ ∧
      tsMain fw args (files.set args.infile (content.take (n * (100000 * recordSize args.inFmt)))) =
        ⟨(files.set args.infile (content.take (n * (100000 * recordSize args.inFmt)))).set out written, none, none⟩ := by
  have run : ∀ (fs : Files) (c : Bytes), fs args.infile = some c → tsMain fw args fs =
      ⟨fs.set out (swriteFmt fw args.outFmt args.legacyOut .ps4
        ((sreadFmt fw args.inFmt args.legacyIn .ps4 false 100000 c).1.map (filterBatch args.filter .ps4))), none,
        (sreadFmt fw args.inFmt args.legacyIn .ps4 false 100000 c).2⟩ := by
    intro fs c hc
    have hsame : (fs.set out [] args.infile).getD [] = c := by
      unfold Files.set
      rw [if_neg hdiff, hc]
      rfl
    unfold tsMain
    simp only [hout, Option.getD_some, hprint, Bool.false_eq_true, not_false_eq_true, true_and, hne, if_false, hc, hmem, hsame]
    congr 1
    funext n
    unfold Files.set
    split <;> rfl
  rw [run files content hin] at herr
  obtain ⟨n, h1, h2⟩ := sreadFmt_error fw args.inFmt args.legacyIn .ps4 false 100000 content htext e herr
  have herr' : (sreadFmt fw args.inFmt args.legacyIn .ps4 false 100000 content).2 = some e := herr
  refine ⟨n, swriteFmt fw args.outFmt args.legacyOut .ps4
    ((sreadFmt fw args.inFmt args.legacyIn .ps4 false 100000 content).1.map (filterBatch args.filter .ps4)), h1, ?_, ?_⟩
  · rw [run files content hin, herr']
  · rw [run _ (content.take (n * (100000 * recordSize args.inFmt))) (by simp [Files.set]), h2]

/-- **C117**, what this is for a file of events `pre` followed by something that is no event: the events of the whole batches
before it. -/
theorem C117_damaged (fw : Nat) (hfw : 54 ≤ fw) (args : TsArgs) (files : Files) (pre : List (Nat × Nat)) (d : Bytes)
    (out : List Char) (hv : ∀ r ∈ pre, Valid r) (hrep : Representable args.inFmt pre) (hd : NoEvent args.inFmt d)
    (hin : files args.infile = some (fileOf args.inFmt args.legacyIn pre ++ d)) (hout : args.outfile = some out) (hne : out ≠ [])
    (hdiff : args.infile ≠ out) (hprint : args.print = false) (hmem : args.inmemory = false)
    (hpat : ∀ pat, args.filter.pattern = some pat → pat < 16)
    (hs : Timed args.filter → pre.Pairwise (fun x y => x.1 ≤ y.1) ∧ ∀ r ∈ pre, r.1 < 2 ^ 53) :
    tsMain fw args files =
      ⟨files.set out (fileOf args.outFmt args.legacyOut (filtered args.filter (wholeBatches pre))), none, some .valueError⟩ := by
  have sub : (wholeBatches pre).Sublist pre := List.take_sublist _ _
  have hv' : ∀ r ∈ wholeBatches pre, Valid r := fun r hr => hv r (sub.subset hr)
  obtain ⟨h1, -, h2⟩ := kept_stream fw hfw args.inFmt args.legacyIn .ps4 false (Or.inl ⟨rfl, rfl⟩) args.filter (wholeBatches pre) hv'
    (wholeBatches_representable _ _ hrep) hpat (fun ht => (hs ht).1.sublist sub) (fun ht _ r hr => (hs ht).2 r (sub.subset hr))
  have hsame : (files.set out [] args.infile).getD [] = fileOf args.inFmt args.legacyIn pre ++ d := by
    unfold Files.set
    rw [if_neg hdiff, hin]
    rfl
  unfold tsMain
  simp only [hout, Option.getD_some, hprint, Bool.false_eq_true, not_false_eq_true, true_and, hne, if_false, hin, hmem, hsame]
  rw [sreadFmt_damaged fw args.inFmt args.legacyIn .ps4 false pre d hv hd h2, swriteFmt_flatten,
    writeFmt_raws fw hfw args.outFmt args.legacyOut .ps4 false (Or.inl ⟨rfl, rfl⟩) _ _ (filtered_valid _ _ hv') h1]
  congr 1
  funext n
  unfold Files.set
  split <;> rfl

/-- **C117**, statistics of such a file (`-p`): no report, and nothing is changed. -/
theorem C117_no_report (fw : Nat) (hfw : 54 ≤ fw) (args : TsArgs) (files : Files) (pre : List (Nat × Nat)) (d : Bytes)
    (hv : ∀ r ∈ pre, Valid r) (hrep : Representable args.inFmt pre) (hd : NoEvent args.inFmt d)
    (hin : files args.infile = some (fileOf args.inFmt args.legacyIn pre ++ d)) (hprint : args.print = true) (hmem : args.inmemory = false) :
    tsMain fw args files = ⟨files, none, some .valueError⟩ := by
  have hv' : ∀ r ∈ wholeBatches pre, Valid r := fun r hr => hv r (List.mem_of_mem_take hr)
  have key : ∀ res frac, (sreadFmt fw args.inFmt args.legacyIn res frac 100000 (fileOf args.inFmt args.legacyIn pre ++ d)).2 = some .valueError := by
    intro res frac
    obtain ⟨-, -, -, -, h4⟩ := sreadFmt_file fw hfw args.inFmt args.legacyIn res frac 100000 (by norm_num) (wholeBatches pre) hv'
      (wholeBatches_representable _ _ hrep)
    rw [sreadFmt_damaged fw args.inFmt args.legacyIn res frac pre d hv hd h4]
  unfold tsMain
  simp only [hprint, hin, hmem, not_true_eq_false, false_and, if_false, if_true, Bool.false_eq_true, key]
  split <;> rfl

/-- Three bytes too many: nothing is left of three events, since they are in the batch that cannot be decoded. -/
example (fw : Nat) (hfw : 54 ≤ fw) (files : Files)
    (hin : files ['i'] = some (fileOf .a1 false [(1, 1), (2, 2), (3, 1)] ++ [0, 0, 0])) :
    tsMain fw ⟨.a1, false, .a2, false, false, ⟨none, false, false, none, none⟩, false, ['i'], some ['o']⟩ files =
      ⟨files.set ['o'] [], none, some .valueError⟩ :=
  C117_damaged fw hfw _ files [(1, 1), (2, 2), (3, 1)] [0, 0, 0] ['o'] (by simp [Valid]) trivial (by simp [NoEvent]) hin rfl (by decide) (by decide)
    rfl rfl (by simp) (by simp [Timed])

/-- An `x`-free text with a `q` in the place of the second event. -/
example : NoEvent .a2 [49, 113, 10] := by
  refine ⟨?_, [49], 113, [10], rfl, by decide, ?_⟩
  · intro x hx; simp at hx; rcases hx with rfl | rfl | rfl <;> decide
  · exact ⟨by decide, by decide, by decide⟩

end Fp
