import Verif.Model.Wordpiece
import Verif.Model.Fst
/-!
# Model of `GetWordpieceTransducer` of nisaba/translit/fst/wordpiece-segmenter.cc

All weights are `One`; they are the number 0.
-/
namespace Nisaba.Wordpiece
open Nisaba.Fst

/-- Ways to fail: an internal error of the segmentation, the missing label of the unknown piece, the
exception on a word that is not valid UTF-8. -/
inductive TErr
  | seg (e : Err)
  | needOov
  | invalidUtf8
  | noResult
  deriving DecidableEq

/-- Label of a piece (wordpiece-segmenter.cc:231-238): that of the unknown piece if it has none. -/
def pieceLabel (pieceSyms : SymTab) (unk : Option Nat) (piece : List Nat) : Except TErr Nat :=
  match pieceSyms.find piece with
  | some l => .ok l
  | none => match unk with
    | none => .error .needOov
    | some u => .ok u

/-- Loop over the pieces of a word (wordpiece-segmenter.cc:230-242), from state `curr`. -/
def addPieces (pieceSyms : SymTab) (unk : Option Nat) : List (List Nat) → VFst Nat → Nat →
    Except TErr (VFst Nat × Nat)
  | [], f, curr => .ok (f, curr)
  | p :: ps, f, curr =>
    match pieceLabel pieceSyms unk p with
    | .error e => .error e
    | .ok l => addPieces pieceSyms unk ps (f.addState.1.addArc curr ⟨0, l, 0, f.addState.2⟩) f.addState.2

/-- `GetWordpieces` with all its failures. -/
def piecesOf (seg : Segmenter) (word : List Nat) : Except TErr (List (List Nat)) :=
  match getWordpieces seg word with
  | none => .error .invalidUtf8
  | some none => .error .noResult
  | some (some (.error e)) => .error (.seg e)
  | some (some (.ok ps)) => .ok ps

/-- Loop over the words (wordpiece-segmenter.cc:225-244); the start state is 0. -/
def addWordPaths (seg : Segmenter) (wordSyms pieceSyms : SymTab) (unk : Option Nat) : List Nat →
    VFst Nat → Except TErr (VFst Nat)
  | [], f => .ok f
  | w :: ws, f =>
    match piecesOf seg ((wordSyms[w]?).getD []) with
    | .error e => .error e
    | .ok ps =>
      match addPieces pieceSyms unk ps f 0 with
      | .error e => .error e
      | .ok (f, curr) => addWordPaths seg wordSyms pieceSyms unk ws (f.addArc curr ⟨w, 0, 0, 0⟩)

/-- nisaba/translit/fst/wordpiece-segmenter.cc:217-246 `GetWordpieceTransducer`. -/
def wordpieceTransducer (seg : Segmenter) (inputWords : List Nat) (wordSyms pieceSyms : SymTab)
    (wordpieceUnk : List Nat) : Except TErr (VFst Nat) :=
  let f := (({} : VFst Nat).addState.1.setStart 0).setFinal 0
  addWordPaths seg wordSyms pieceSyms (pieceSyms.find wordpieceUnk) inputWords f

end Nisaba.Wordpiece
