import Verif.Model.OutFile
import Verif.Model.VLSD
import Verif.Model.SDMapStar
import Verif.Model.BSD
import Verif.Model.IDSD
import Verif.Model.QFinder
import Verif.Model.SDIGA
/-! Model of the result files of the other subgroup set algorithms, seen from outside (as `Model/OutFile` for SDMap). `vlsd.py:184-220`, `:283-395`;
`sdmapstar.py:184-350`, `:352-383`; `sdiga.py:443-566`; `bsd.py:441-466`; `idsd.py:413-430`; `qfinder.py:312-313`, `:340-357`. -/
namespace Verif

/-- a search seen from outside: what it hands to `_handle_individual_result`, in this order, and how it ends -/
structure Trace (ι α : Type) where
  items : List ι
  out : Except PyErr α

/-- the events of the calls of `_handle_individual_result` and of what follows them. `judge`: an exception (of the quality measure), `none` when the description
is not good enough, or the texts that are written. -/
def judgedEvents {ι : Type} (judge : ι → Except PyErr (Option (List Str))) (fin : List SDMapEvent) : List ι → List SDMapEvent
  | [] => fin
  | x :: xs => match judge x with
    | .error e => [.raised e]
    | .ok none => .unselected :: judgedEvents judge fin xs
    | .ok (some ts) => ts.map (fun t => .file (.write t)) ++ .selected :: judgedEvents judge fin xs

/-- the end of `fit`: the exception of the search, or `close` -/
def Trace.fin {ι α : Type} (t : Trace ι α) : List SDMapEvent :=
  match t.out with
  | .error e => [.raised e]
  | .ok _ => [.file .close]

/-! ### VLSD -/

/-- the texts written for a result, `vlsd.py:208-216`. The names of the measures and the texts of floats and of sequences of instances are parameters. -/
def VLine.parts {Seq : Type} (name oeName : Str) (floatStr : Rat → Str) (seqStr : Seq → Str) (l : VLine Seq) : List Str :=
  [l.subgroup.str ++ c!" ; ",
   c!"Sequence of instances tp = " ++ seqStr l.tpSeq ++ c!" ; ",
   c!"Sequence of instances fp = " ++ seqStr l.fpSeq ++ c!" ; ",
   c!"Quality Measure " ++ name ++ c!" = " ++ floatStr l.quality ++ c!" ; ",
   c!"Optimistic Estimate " ++ oeName ++ c!" = " ++ floatStr l.estimate ++ c!" ; ",
   c!"tp = " ++ natStr l.tp ++ c!" ; ",
   c!"fp = " ++ natStr l.fp ++ c!" ; ",
   c!"TP = " ++ natStr l.TP ++ c!" ; ",
   c!"FP = " ++ natStr l.FP ++ c!"\n"]

namespace VLSDConfig
variable {Seq : Type}

/-- `_handle_individual_result`, `vlsd.py:184-220` -/
def judge (cfg : VLSDConfig) (name oeName : Str) (floatStr : Rat → Str) (seqStr : Seq → Str) (target : Str × Str) (TP FP : Nat) (v : VList Selector Seq) :
    Except PyErr (Option (List Str)) :=
  match cfg.measure (paramsFor v.tp v.fp TP FP cfg.extra) with
  | .error e => .error e
  | .ok q =>
    if q ≥ cfg.minQuality then
      .ok (some ((⟨⟨Pattern.new v.sels, ⟨target.1, .equal, .str target.2⟩⟩, v.tpSeq, v.fpSeq, q, v.quality, v.tp, v.fp, TP, FP⟩ : VLine Seq).parts name oeName floatStr seqStr))
    else .ok none

/-- the inner loop of `_search`, `vlsd.py:302-320` -/
def emitRight (I : VLImpl Seq) (cfg : VLSDConfig) (TP FP : Nat) (M : VMatrix Seq) (x : VList Selector Seq) :
    List (VList Selector Seq) → Trace (VList Selector Seq) (List (VList Selector Seq))
  | [] => ⟨[], .ok []⟩
  | y :: ys =>
    match x.sels.getLast?, y.sels.getLast? with
    | some a, some b =>
      match M.query a b with
      | none => emitRight I cfg TP FP M x ys
      | some m =>
        if m.quality ≥ cfg.minEstimate then
          match cfg.goodJoin I TP FP x y with
          | .error e => ⟨[], .error e⟩
          | .ok none => emitRight I cfg TP FP M x ys
          | .ok (some v) => ⟨v :: (emitRight I cfg TP FP M x ys).items, match (emitRight I cfg TP FP M x ys).out with
            | .error e => .error e
            | .ok V => .ok (v :: V)⟩
        else emitRight I cfg TP FP M x ys
    | _, _ => ⟨[], .error .indexError⟩

theorem emitRight_length {I : VLImpl Seq} {cfg : VLSDConfig} {TP FP : Nat} {M : VMatrix Seq} {x : VList Selector Seq}
    {ys V : List (VList Selector Seq)} (h : (emitRight I cfg TP FP M x ys).out = .ok V) : V.length ≤ ys.length := by
  induction ys generalizing V with
  | nil => simp only [emitRight, Except.ok.injEq] at h; rw [← h]
  | cons y ys ih =>
    unfold emitRight at h
    repeat' split at h
    all_goals first
      | (cases h; done)
      | (have := ih h; simp only [List.length_cons]; omega)
      | skip
    rename_i h1
    have := ih h1
    injection h with h
    rw [← h]
    simp only [List.length_cons]; omega

/-- `_search`, `vlsd.py:283-328` -/
def emitSearch (I : VLImpl Seq) (cfg : VLSDConfig) (TP FP : Nat) (M : VMatrix Seq) :
    List (VList Selector Seq) → Trace (VList Selector Seq) Unit
  | [] => ⟨[], .ok ()⟩
  | x :: rest =>
    match _h : (emitRight I cfg TP FP M x rest).out with
    | .error e => ⟨(emitRight I cfg TP FP M x rest).items, .error e⟩
    | .ok V =>
      let below : Trace (VList Selector Seq) Unit := if V = [] then ⟨[], .ok ()⟩ else emitSearch I cfg TP FP M (cfg.sortOther.sort V)
      match below.out with
      | .error e => ⟨(emitRight I cfg TP FP M x rest).items ++ below.items, .error e⟩
      | .ok _ =>
        let r := emitSearch I cfg TP FP M rest
        ⟨(emitRight I cfg TP FP M x rest).items ++ below.items ++ r.items, r.out⟩
termination_by P => P.length
decreasing_by
  · rw [sort_length, List.length_cons]; have := emitRight_length _h; omega
  · simp

/-- the last loop of `fit`, `vlsd.py:377-392` -/
def emitLevel2 (I : VLImpl Seq) (cfg : VLSDConfig) (TP FP : Nat) (M : VMatrix Seq) :
    List (VList Selector Seq) → Trace (VList Selector Seq) Unit
  | [] => ⟨[], .ok ()⟩
  | x :: rest =>
    match x.sels.getLast? with
    | none => ⟨[], .error .indexError⟩
    | some a =>
      match M.lookup a with
      | none => emitLevel2 I cfg TP FP M rest
      | some row =>
        let P := cfg.sortOther.sort (row.map (·.2))
        match (emitSearch I cfg TP FP M P).out with
        | .error e => ⟨P ++ (emitSearch I cfg TP FP M P).items, .error e⟩
        | .ok _ => ⟨P ++ (emitSearch I cfg TP FP M P).items ++ (emitLevel2 I cfg TP FP M rest).items, (emitLevel2 I cfg TP FP M rest).out⟩

/-- `fit` from the computation of S1 on, `vlsd.py:350-392` -/
def emit (I : VLImpl Seq) (cfg : VLSDConfig) (df : Frame) (target : Str × Str) (mask : List Bool) : Trace (VList Selector Seq) Unit :=
  let TP := mask.count true
  let FP := df.nrows - TP
  match cfg.s1 I df target.1 mask TP FP with
  | .error e => ⟨[], .error e⟩
  | .ok S1 => match cfg.matrix I TP FP S1 with
    | .error e => ⟨S1, .error e⟩
    | .ok M => ⟨S1 ++ (emitLevel2 I cfg TP FP M S1).items, (emitLevel2 I cfg TP FP M S1).out⟩

/-- `VLSD.fit`, `vlsd.py:330-395`: the file is opened before the target is looked up -/
def events (I : VLImpl Seq) (cfg : VLSDConfig) (name oeName : Str) (floatStr : Rat → Str) (seqStr : Seq → Str) (df : Frame) (target : Str × Str) :
    List SDMapEvent :=
  if !df.nominal then [.raised .datasetAttributeType]
  else .file .openW :: match targetMask df target with
    | .error e => [.raised e]
    | .ok mask => judgedEvents (cfg.judge name oeName floatStr seqStr target (mask.count true) (df.nrows - mask.count true)) (cfg.emit I df target mask).fin
        (cfg.emit I df target mask).items

end VLSDConfig

/-! ### SDMapStar -/

namespace SDMapStarConfig

/-- `_handle_individual_result`, `sdmapstar.py:184-219` -/
def judge (cfg : SDMapStarConfig) (name : Str) (floatStr : Rat → Str) (target : Str × Str) (TP FP : Nat) (r : Pattern × Cnt) :
    Except PyErr (Option (List Str)) :=
  match cfg.measure (paramsFor r.2.1 r.2.2 TP FP cfg.extra) with
  | .error e => .error e
  | .ok q =>
    if q ≥ cfg.minQuality then
      .ok (some ((⟨⟨r.1, ⟨target.1, .equal, .str target.2⟩⟩, q, r.2.1, r.2.2, TP, FP⟩ : ResultLine).parts name floatStr))
    else .ok none

/-- one description with `num_subgroups > 0`, `:258-271` and `:297-313`: the new best qualities, and whether it is handled (not pruned) -/
def emitVisit (cfg : SDMapStarConfig) (TP FP : Nat) (ks : List Rat) (c : Cnt) : Except PyErr (List Rat × Bool) := do
  let q ← cfg.kQuality TP FP c
  let ks ← pushK cfg.num ks q
  let o ← cfg.oe TP FP c
  match ks with
  | [] => .error .indexError
  | m :: _ => if m > o then .ok (ks, false) else .ok (ks, true)

/-- a loop whose turns are traces -/
def emitLoop {α ι κ : Type} (f : κ → α → Trace ι κ) : List α → κ → Trace ι κ
  | [], k => ⟨[], .ok k⟩
  | a :: l, k => match (f k a).out with
    | .error e => ⟨(f k a).items, .error e⟩
    | .ok k' => ⟨(f k a).items ++ (emitLoop f l k').items, (emitLoop f l k').out⟩

/-- `_fpgrowth` with `num_subgroups > 0`, `:221-324`; the state passed on is the list of the best qualities -/
def emitGrowth (cfg : SDMapStarConfig) (TP FP : Nat) : Nat → FPTree Selector → List Selector → List Rat → Trace (Pattern × Cnt) (List Rat)
  | 0, _, _, ks => ⟨[], .ok ks⟩
  | fuel + 1, t, alpha, ks =>
    if t.singlePath then
      emitLoop (fun ks beta => match cfg.emitVisit TP FP ks (t.leastFrequentCnt beta) with
        | .error e => ⟨[], .error e⟩
        | .ok (ks, true) => ⟨[(Pattern.new (beta ++ alpha), t.leastFrequentCnt beta)], .ok ks⟩
        | .ok (ks, false) => ⟨[], .ok ks⟩) ((allCombinations t.sorted).erase []) ks
    else match cfg.oeOrder TP FP t with
      | .error e => ⟨[], .error e⟩
      | .ok order => emitLoop (fun ks a => match cfg.emitVisit TP FP ks ((t.header.lookup a).getD (0, 0)) with
        | .error e => ⟨[], .error e⟩
        | .ok (ks, false) => ⟨[], .ok ks⟩
        | .ok (ks, true) => match cfg.condTreeStar TP FP (ks.headD 0) t a with
          | .error e => ⟨[(Pattern.new (a :: alpha), (t.header.lookup a).getD (0, 0))], .error e⟩
          | .ok c =>
            if !c.1.isEmpty then ⟨(Pattern.new (a :: alpha), (t.header.lookup a).getD (0, 0)) :: (cfg.emitGrowth TP FP fuel c.1 (a :: alpha) ks).items,
              (cfg.emitGrowth TP FP fuel c.1 (a :: alpha) ks).out⟩
            else ⟨[(Pattern.new (a :: alpha), (t.header.lookup a).getD (0, 0))], .ok ks⟩) order ks

/-- `SDMapStar.fit`, `:352-383`, of an object whose list of the best qualities is `ks`. Nothing is opened when no selector is frequent. -/
def events (cfg : SDMapStarConfig) (name : Str) (floatStr : Rat → Str) (ks : List Rat) (df : Frame) (target : Str × Str) : List SDMapEvent :=
  if cfg.num = 0 then
    match nominalResults (fun t => t.header.map (·.1)) cfg.th df target with
    | .error e => [.raised e]
    | .ok (none, _, _) => []
    | .ok (some rs, TP, FP) => .file .openW :: judgedEvents (cfg.judge name floatStr target TP FP) [.file .close] (rs.map (fun r => (Pattern.new r.1, r.2)))
  else if !df.nominal then [.raised .datasetAttributeType]
  else match targetMask df target with
    | .error e => [.raised e]
    | .ok mask =>
      let t := FPTree.buildTree Selector.dictKey (frequentSelectors cfg.th df target.1 mask) (keyRows df target.1 mask)
      let TP := mask.count true
      if t.isEmpty then []
      else
        let r := cfg.emitGrowth TP (df.nrows - TP) (t.nodes.length + 1) t [] ks
        .file .openW :: judgedEvents (cfg.judge name floatStr target TP (df.nrows - TP)) r.fin r.items

end SDMapStarConfig

/-! ### SDIGA -/

/-- the texts written for a result, `sdiga.py:518-527` -/
def SDIGALine.parts (floatStr : Rat → Str) (l : SDIGALine) : List Str :=
  [l.subgroup.str ++ c!" ; ",
   c!"Quality Measure Fitness = " ++ floatStr l.fitness ++ c!" ; ",
   c!"tp = " ++ natStr l.tp ++ c!" ; ",
   c!"fp = " ++ natStr l.fp ++ c!" ; ",
   c!"TP = " ++ natStr l.TP ++ c!" ; ",
   c!"FP = " ++ natStr l.FP ++ c!" ; ",
   c!"unchecked_tp = " ++ natStr l.utp ++ c!" ; ",
   c!"unchecked_fp = " ++ natStr l.ufp ++ c!" ; ",
   c!"TP_unchecked = " ++ natStr l.TPu ++ c!" ; ",
   c!"FP_unchecked = " ++ natStr l.FPu ++ c!"\n"]

namespace SDIGA

/-- the outer loop, `sdiga.py:443-533`: the operations on the file (only the new lines of a turn are written), the end of `fit` included -/
def loopOps (cfg : SDIGAConfig) (floatStr : Rat → Str) (rows : List ERow) (target : Str × Str) (dict : List (Str × List Val)) (o : Nat → SDIGAChoice) :
    Nat → Nat → SDIGAState → List OutFile.Op
  | 0, _, _ => []
  | fuel + 1, k, st =>
    match turn cfg rows target dict (o k) st with
    | .error _ => []
    | .ok (st', true) => ((st'.file.drop st.file.length).flatMap (SDIGALine.parts floatStr)).map .write ++ loopOps cfg floatStr rows target dict o fuel (k + 1) st'
    | .ok (st', false) => ((st'.file.drop st.file.length).flatMap (SDIGALine.parts floatStr)).map .write ++ [.close]

/-- `SDIGA.fit`, `sdiga.py:536-566`, with a file: the operations on the file during the first `fuel` turns of the loop -/
def ops (cfg : SDIGAConfig) (floatStr : Rat → Str) (o : Nat → SDIGAChoice) (fuel : Nat) (st : SDIGAState) (df : Frame) (target : Str × Str) : List OutFile.Op :=
  if !df.nominal then []
  else match df.col target.1 with
    | .error _ => []
    | .ok tcol =>
      if !(tcol.any (fun v => v.eq (.str target.2))) then []
      else
        let rows := encodeRows df target.1 tcol
        let TP := tcol.countP (fun v => v.eq (.str target.2))
        .openW :: loopOps cfg floatStr rows target (encodeDict df target.1) o fuel 0
          { st with file := [], cases := [], unchecked := rows, TP := TP, FP := df.nrows - TP, TPu := TP, FPu := df.nrows - TP }

end SDIGA

/-! ### The algorithms that write their file at the end: BSD, CBSD, CPBSD, IDSD, QFinder -/

/-- the whole file is written after the search, `bsd.py:441-445`, `idsd.py:422-430`, `qfinder.py:349-357`; after an exception of the search nothing is done -/
def writeAtEnd (texts : Except PyErr (List Str)) : List OutFile.Op :=
  match texts with
  | .error _ => []
  | .ok ts => .openW :: (ts.map .write ++ [.close])

/-- the texts written for a result, `bsd.py:461-466` -/
def BSDLine.parts (name : Str) (floatStr : Rat → Str) (l : BSDLine) : List Str :=
  [l.subgroup.str ++ c!" ; ",
   c!"Quality Measure " ++ name ++ c!" = " ++ floatStr l.quality ++ c!" ; ",
   c!"tp = " ++ natStr l.tp ++ c!" ; ",
   c!"fp = " ++ natStr l.fp ++ c!" ; ",
   c!"TP = " ++ natStr l.TP ++ c!" ; ",
   c!"FP = " ++ natStr l.FP ++ c!"\n"]

/-- `BSD.fit` with a file, `bsd.py:392-445` -/
def BSDConfig.ops (cfg : BSDConfig) (name : Str) (floatStr : Rat → Str) (st : BSDState) (df : Frame) (target : Str × Str) : List OutFile.Op :=
  writeAtEnd ((cfg.fit st df target).map (fun st' => st'.file.flatMap (BSDLine.parts name floatStr)))

/-- the texts written for a result, `idsd.py:424-429` -/
def IDSDEntry.parts (xStr : XF → Str) (target : Str × Str) (e : IDSDEntry) : List Str :=
  [(⟨e.pat, ⟨target.1, .equal, .str target.2⟩⟩ : Subgroup).str ++ c!" ; ",
   c!"Rank : " ++ natStr e.rank ++ c!" ; ",
   c!"coverage : " ++ xStr e.cred.cov ++ c!" ; ",
   c!"odds_ratio : " ++ xStr e.cred.odds ++ c!" ; ",
   c!"p_value : " ++ xStr e.cred.pval ++ c!" ; ",
   c!"absolute_contribution : " ++ xStr e.cred.absC ++ c!" ; ",
   c!"contribution_ratio : " ++ xStr e.cred.ratioC ++ c!" ; ",
   c!"\n"]

/-- `IDSD.fit` with a file, `idsd.py:413-414` -/
def IDSD.ops (cfg : IDSDConfig) (xStr : XF → Str) (st : IDSDState) (df : Frame) (target : Str × Str) : List OutFile.Op :=
  writeAtEnd ((IDSD.fit cfg st df target).map (fun st' => st'.top.flatMap (IDSDEntry.parts xStr target)))

namespace QFinder

/-- the texts written for a pattern with its row of the table, `qfinder.py:351-355` -/
def rowParts (xStr : XF → Str) (target : Str × Str) (p : Pattern) (c : QFCred) : List Str :=
  [(⟨p, ⟨target.1, .equal, .str target.2⟩⟩ : Subgroup).str ++ c!" ; ",
   c!"coverage: " ++ xStr c.cov ++ c!" ; ",
   c!"odds_ratio: " ++ xStr c.odds ++ c!" ; ",
   c!"p_value: " ++ xStr c.pval ++ c!" ; ",
   c!"absolute_contribution: " ++ xStr c.absC ++ c!" ; ",
   c!"contribution_ratio: " ++ xStr c.ratioC ++ c!" ; ",
   c!"adjusted_p_value: " ++ xStr c.adjP ++ c!" ; ",
   c!"\n"]

/-- the loop of `_to_file`, `qfinder.py:350-357`: a pattern without a row raises `KeyError` after its subgroup has been written -/
def toFileOps (xStr : XF → Str) (target : Str × Str) (table : Dict QFCred) : List Pattern → List OutFile.Op
  | [] => [.close]
  | p :: rest => match table.lookup p.str with
    | none => [.write ((⟨p, ⟨target.1, .equal, .str target.2⟩⟩ : Subgroup).str ++ c!" ; ")]
    | some c => (rowParts xStr target p c).map .write ++ toFileOps xStr target table rest

/-- `QFinder.fit` with a file, `qfinder.py:312-313` -/
def fitOps (cfg : QFConfig) (xStr : XF → Str) (st : QFState) (df : Frame) (target : Str × Str) : List OutFile.Op :=
  match fit cfg st df target with
  | .error _ => []
  | .ok st' => .openW :: toFileOps xStr target st'.table (st'.top.map (·.pat))

/-- `QFinder.test_subgroups` with `write_to_file`, `qfinder.py:337-342` -/
def testOps (cfg : QFConfig) (xStr : XF → Str) (st : QFState) (df : Frame) (target : Str × Str) : List OutFile.Op :=
  match testSubgroups cfg st df target with
  | .error _ => []
  | .ok table => .openW :: toFileOps xStr target table (st.top.map (·.pat))

end QFinder
end Verif
