import Verif.Model.BSD
import Verif.Spec.Nominal
/-! Specification vocabulary for BSD, CBSD and CPBSD. The bit array of an entry has first one bit per positive row (there are `P` of them)
and then one per negative row. -/
namespace Verif.Spec

/-- every set bit of `a` is set in `b` -/
def BitsIn (a b : Bits) : Prop := ∀ i, a.get i = true → b.get i = true

/-- `a` is dominated by `b`: its positive rows are among those of `b`, and the negative rows of `b` are among those of `a` -/
def Dominated (P : Nat) (a b : BSDEntry) : Prop := BitsIn (a.bits.take P) (b.bits.take P) ∧ BitsIn (b.bits.drop P) (a.bits.drop P)

/-- what each algorithm promises about two entries of its list -/
def Apart (v : BSDVariant) (P : Nat) (a b : BSDEntry) : Prop :=
  match v with
  | .bsd => ¬ Dominated P a b ∧ ¬ Dominated P b a
  | .cbsd => a.quality = b.quality → a.bits ≠ b.bits
  | .cpbsd => a.quality = b.quality → a.bits.take P ≠ b.bits.take P

/-- a candidate: the entry that would be added, and its positive and negative bits -/
structure BSDCand where
  entry : BSDEntry
  pos : Bits
  neg : Bits

/-- a candidate with some selector, `P` positive and `N` negative bits, and a quality above that of the dummy entry -/
structure GoodCand (P N : Nat) (c : BSDCand) : Prop where
  sels : c.entry.pat.sels ≠ []
  pos : c.pos.length = P
  neg : c.neg.length = N
  bits : c.entry.bits = c.pos ++ c.neg
  quality : -99999 < c.entry.quality

/-- the entries of the list that are subgroups (all but the dummy entry, which is the one without selectors) -/
def realEntries (k : List BSDEntry) : List BSDEntry := k.filter (fun e => decide (e.pat.sels ≠ []))

/-- some entry of the list has at least this quality -/
def BestGe (st : BSDState) (x : Rat) : Prop := ∃ e ∈ st.k, x ≤ e.quality

section
open Classical

/-- the rows in which the target appears, and the others, in order -/
noncomputable def posRows (df : Frame) (target : Str × Str) : List Nat :=
  (List.range df.nrows).filter (fun i => decide (MatchesAt df (targetSel target) i))
noncomputable def negRows (df : Frame) (target : Str × Str) : List Nat :=
  (List.range df.nrows).filter (fun i => decide (¬ MatchesAt df (targetSel target) i))

/-- one bit per row of the list: is the row covered by `X`? -/
noncomputable def bitsFor (df : Frame) (rows : List Nat) (X : List Selector) : Bits := rows.map (fun i => decide (Covers df X i))

/-- the value of the quality measure, and of the optimistic estimate, for the counts of `X` in the data -/
noncomputable def bsdQuality (cfg : BSDConfig) (df : Frame) (target : Str × Str) (X : List Selector) : Except PyErr Rat :=
  cfg.measure (paramsFor (tpOf df target X) (fpOf df target X) (tpOf df target []) (fpOf df target []) cfg.extra)
noncomputable def bsdEstimate (cfg : BSDConfig) (df : Frame) (target : Str × Str) (X : List Selector) : Except PyErr Rat :=
  cfg.estimate (paramsFor (tpOf df target X) (fpOf df target X) (tpOf df target []) (fpOf df target []) cfg.extraOE)

/-- the entry is exactly that of its description -/
structure ExactEntry (cfg : BSDConfig) (df : Frame) (target : Str × Str) (e : BSDEntry) : Prop where
  describes : Describes target e.pat.sels
  sorted : e.pat.sels.Pairwise (fun a b => a.lt b = true)
  occurs : OccursIn df e.pat.sels
  bits : e.bits = bitsFor df (posRows df target) e.pat.sels ++ bitsFor df (negRows df target) e.pat.sels
  tp : e.tp = tpOf df target e.pat.sels
  fp : e.fp = fpOf df target e.pat.sels
  quality : bsdQuality cfg df target e.pat.sels = .ok e.quality
  estimate : bsdEstimate cfg df target e.pat.sels = .ok e.oe

/-- `X` is dominated by `Y` in the data: the positive rows of `X` are rows of `Y`, and the negative rows of `Y` are rows of `X` -/
def RowDominated (df : Frame) (target : Str × Str) (X Y : List Selector) : Prop :=
  (∀ i, i < df.nrows → MatchesAt df (targetSel target) i → Covers df X i → Covers df Y i) ∧
  (∀ i, i < df.nrows → ¬ MatchesAt df (targetSel target) i → Covers df Y i → Covers df X i)

/-- different selectors of the data have different texts -/
def TextsFaithful (df : Frame) (target : Str × Str) : Prop :=
  ∀ a b, Describes target [a] → Describes target [b] → OccursIn df [a] → OccursIn df [b] → a.str = b.str → a = b

/-- every quality in the data is above that of the dummy entry (-99999) -/
def BSDAbove (cfg : BSDConfig) (df : Frame) (target : Str × Str) : Prop :=
  ∀ X q, Describes target X → OccursIn df X → bsdQuality cfg df target X = .ok q → -99999 < q

/-- the optimistic estimate bounds the quality of the description and of its refinements, in the data -/
def BSDBounds (cfg : BSDConfig) (df : Frame) (target : Str × Str) : Prop :=
  ∀ X Y o q, Describes target X → (∀ s ∈ X, s ∈ Y) → OccursIn df Y → bsdEstimate cfg df target X = .ok o → bsdQuality cfg df target Y = .ok q → q ≤ o

/-- measure and estimate are defined on the descriptions of the data and, for BSD, some row is negative -/
def BSDNoErr (cfg : BSDConfig) (df : Frame) (target : Str × Str) : Prop :=
  (∀ X, Describes target X → OccursIn df X → (∃ q, bsdQuality cfg df target X = .ok q) ∧ ∃ o, bsdEstimate cfg df target X = .ok o) ∧
  (cfg.variant = .bsd → (negRows df target).length ≠ 0)

/-- more positives and fewer negatives do not decrease the quality, in the data -/
def BSDMonotone (cfg : BSDConfig) (df : Frame) (target : Str × Str) : Prop :=
  ∀ X Y p q, Describes target X → Describes target Y → OccursIn df X → OccursIn df Y → tpOf df target X ≤ tpOf df target Y → fpOf df target Y ≤ fpOf df target X →
    bsdQuality cfg df target X = .ok p → bsdQuality cfg df target Y = .ok q → p ≤ q
end

end Verif.Spec
