import Verif.Model.Writer
import Verif.Model.Header
import Mathlib.Analysis.SpecialFunctions.Pow.Real

/-!
# Model of the header and the units that the snapshot writer writes (swiftsimio/snapshot_writer.py)

Together with `Model/Writer.lean`, which has the particle groups, this is the whole file.
-/

namespace Verif.WriterHeader
open Verif Verif.Writer Verif.Header
open Verif.Units (Dim)

/-- The arguments of `SWIFTSnapshotWriter` that end up in the header: the box in base units, the number of dimensions, the scale
factor and the extra entries. -/
structure Conf (K : Type) where
  box : List K
  dimension : Nat
  scaleFactor : K
  extra : Option (List (String × Raw K))

/-- A box given by the user: numbers (none for something without length), the size of their unit in base units, and the frame. -/
structure Box (K : Type) where
  vals : Option (List K)
  unit : K
  comoving : Bool
  scale : K

/-- `SWIFTSnapshotWriter.__init__`, snapshot_writer.py:660-698: the box is copied and converted to base units, which does not
change the frame. -/
def init {K : Type} [Mul K] (b : Box K) (dimension : Nat) (a : K) (extra : Option (List (String × Raw K))) :
    Except Err (Conf K) :=
  match b.vals with
  | none => .error .value
  | some l => if l.length ≠ dimension then .error .value else .ok ⟨l.map (fun x => x * b.unit), dimension, a, extra⟩

/-- The entry of the mass table for type `t`, snapshot_writer.py:768-773: `masses[0]` of a type that is written; types without
particles raise, see `Writer.massTable`. `num` is the number in a row of masses. -/
def massEntry {α K : Type} [Zero K] (num : α → K) (f : Writer.File α) (t : Nat) : K :=
  match f.groups.find? (fun e => e.type == t) with
  | none => 0
  | some e => match e.fields.lookup .masses with
    | some (some m) => (m.data.head?.map num).getD 0
    | _ => 0

/-- `attrs` of `_write_metadata` before the extra entries, snapshot_writer.py:776-787. -/
def attrs {α K : Type} [Zero K] [NatCast K] (c : Conf K) (num : α → K) (f : Writer.File α) : List (String × Raw K) :=
  [("BoxSize", .array c.box),
    ("NumPart_Total", .array (f.numPart.map (fun n : Nat => (n : K)))),
    ("NumPart_Total_HighWord", .array (List.replicate 6 0)),
    ("Flag_Entropy_ICs", .scalar 0),
    ("Dimension", .array [(c.dimension : K)]),
    ("Scale-factor", .array [c.scaleFactor]),
    ("NumFilesPerSnapshot", .scalar ((1 : Nat) : K)),
    ("NumPart_ThisFile", .array (f.numPart.map (fun n : Nat => (n : K)))),
    ("MassTable", .array ((List.range 8).map (massEntry num f)))]

/-- `{**attrs, **self.extra_header}` and the loop that writes the entries, snapshot_writer.py:789-795: a later entry replaces an
earlier one. -/
def header {α K : Type} [Zero K] [NatCast K] (c : Conf K) (num : α → K) (f : Writer.File α) : Dict (Raw K) :=
  (attrs c num f ++ c.extra.getD []).foldl (fun d e => d.set e.1 e.2) (fun _ => none)

/-- The file as the reader of the metadata sees it: the writer writes no other group with attributes that are read. -/
def asRead {K : Type} (h : Dict (Raw K)) : Header.File K := ⟨fun g => if g = "Header" then some h else none, none, none⟩

/-- The types that a reader finds: `np.where(np.array(getattr(self, "has_type", self.num_part)) != 0)[0]`,
metadata/objects.py:1001. -/
def readTypes {K D : Type} [Zero K] [DecidableEq K] (s : Dict (Val K D)) : Except Err (List Nat) :=
  match (s "has_type").or (s "num_part") with
  | some (.raw (.array l)) => .ok ((List.range l.length).filter (fun i => decide (l[i]?.getD 0 ≠ 0)))
  | _ => .error .attribute

/-- `_write_units`, snapshot_writer.py:799-853; `base d` is the size of the base unit of the unit system in cgs. -/
noncomputable def unitAttrs (base : Dim → ℝ) : List (String × ℝ) :=
  [("Unit mass in cgs (U_M)", base .mass), ("Unit length in cgs (U_L)", base .length), ("Unit time in cgs (U_t)", base .time),
    ("Unit current in cgs (U_I)", 1), ("Unit temperature in cgs (U_T)", base .temperature)]

/-- `(np.diff(box) == 0).all()`. -/
def noDiff (l : List ℝ) : Prop := ∀ d ∈ List.zipWith (fun x y => y - x) l l.tail, d = 0

open Classical in
/-- `generate_smoothing_lengths` of a type, snapshot_writer.py:150-178; `coords` is the number of rows of the coordinates, none if
they are not set. The result is in the frame of the box. -/
noncomputable def generateSmoothing (t : Nat) (c : Conf ℝ) (coords : Option Nat) : Except Err (List ℝ) :=
  if Name.smoothingLengths ∉ required t then .error .runtime
  else if ¬ noDiff c.box then .error .value
  else match c.box with
    | [] => .error .index
    | boxlength :: _ => match coords with
      | none => .error .attribute
      | some n =>
        let mips := boxlength / (n : ℝ) ^ (1 / (c.dimension : ℝ))
        .ok ((List.replicate n (1 : ℝ)).map (fun o => 2 * mips * o))

end Verif.WriterHeader
