import Verif.Data.Scripts
import Verif.Data.Abjad
import Verif.Props.Rules
import Verif.Props.Nfc
import Verif.Props.Visual
import Verif.Props.VisualIdem
import Verif.Props.Wellformed
import Verif.Props.Utf8
import Verif.Props.Delimiters
import Verif.Props.Wordpiece
import Verif.Props.ErrorRate
import Verif.Props.ErrorInput
import Verif.Props.Kbest
import Verif.Props.ThreadPool
import Verif.Props.FileUtil
import Verif.Props.Softmax
import Verif.Props.ByteMode
import Verif.Props.ByteGrammars
import Verif.Props.Acceptor
import Verif.Props.Grammar
import Verif.Props.Abjad
import Verif.Props.AbjadNormalizer
import Verif.Props.Inventory
import Verif.Props.Operation
import Verif.Props.Lattice
import Verif.Props.Symbol
import Verif.Props.Feature
import Verif.Props.Expression
import Verif.Props.UnicodeStrings
import Verif.Props.Iso
import Verif.Props.PairLM
import Verif.Props.PairLMRun
import Verif.Props.Paths
import Verif.Props.Grm2
import Verif.Props.WfNormal
import Verif.Props.Reading
import Verif.Props.Profile
import Verif.Model.Extract
import Verif.Data.NtTables
import Verif.Model.NtFst
import Verif.Model.NtInventory
import Verif.Model.NtBrahmic
import Verif.Lemmas.NtFst
import Verif.Lemmas.NtTok
import Verif.Lemmas.NtDfa
import Verif.Lemmas.NtStages
import Verif.Lemmas.NtStages2
import Verif.Lemmas.NtInsert
import Verif.Lemmas.NtPrint
import Verif.Lemmas.NtBlock
import Verif.Lemmas.NtOut
import Verif.Lemmas.NtIso
import Verif.Lemmas.NtChain
import Verif.Lemmas.NtText
import Verif.Lemmas.NtCompose
import Verif.Lemmas.Extract
import Verif.Lemmas.ExtractRead
import Verif.Props.Extract
import Verif.Model.WordpieceFst
import Verif.Props.WordpieceFst
import Verif.Props.NtTyp
import Verif.Props.NtLang
import Verif.Props.NtIpa
import Verif.Lemmas.NtFail
import Verif.Lemmas.NtGu
import Verif.Lemmas.NtEval
import Verif.Lemmas.NtPa
import Verif.Lemmas.NtPaAmb
import Verif.Props.NtExact
import Verif.Props.IsoTo
import Verif.Model.Fixed
import Verif.Lemmas.Pieces
import Verif.Lemmas.Fixed
import Verif.Lemmas.FixedCheck
import Verif.Lemmas.FixedMlym
import Verif.Lemmas.FixedTo
import Verif.Props.FixedKeys
import Verif.Props.Fixed
import Verif.Model.PortFile
import Verif.Lemmas.PortFile
import Verif.Props.PortFile
import Verif.Model.Emd
import Verif.Lemmas.Emd
import Verif.Props.Emd
import Verif.Model.IterableThing
import Verif.Props.IterableThing
import Verif.Model.Derom
import Verif.Lemmas.Derom
import Verif.Lemmas.DeromText
import Verif.Lemmas.DeromShape
import Verif.Lemmas.DeromCount
import Verif.Lemmas.DeromTr
import Verif.Props.Derom
import Verif.Lemmas.DeromVir
import Verif.Lemmas.DeromIso
import Verif.Props.DeromIso
import Verif.Data.Spellout
import Verif.Model.Spellout
import Verif.Lemmas.Spellout
import Verif.Props.Spellout
import Verif.Model.Acronym
import Verif.Lemmas.Acronym
import Verif.Lemmas.AcronymChain
import Verif.Props.Acronym
import Verif.Model.PhonIndex
import Verif.Lemmas.PhonIndex
import Verif.Props.PhonIndex
import Verif.Lemmas.NtVocalic
import Verif.Lemmas.NtVocalicTr
import Verif.Lemmas.NtVocalicOut
import Verif.Props.NtVocalic
import Verif.Props.NtRefs
import Verif.Model.FeaturePair
import Verif.Lemmas.FeaturePair
import Verif.Lemmas.FeatureImport
import Verif.Props.FeaturePair
import Verif.Model.ModPhon
import Verif.Props.ModPhon
import Verif.Model.LatticeText
import Verif.Lemmas.LatticeText
import Verif.Props.LatticeText
import Verif.Model.CandText
import Verif.Props.CandText
import Verif.Model.RewriteTester
import Verif.Lemmas.RewriteTester
import Verif.Props.RewriteTester
import Verif.Data.PhonInv
import Verif.Data.PhonInvTable
import Verif.Model.PhonInv
import Verif.Lemmas.PhonInv
import Verif.Props.PhonInv
import Verif.Data.LettersTable
import Verif.Model.Letters
import Verif.Lemmas.Letters
import Verif.Props.Letters
import Verif.Model.AlignRule
import Verif.Props.AlignRule
import Verif.Model.UniTsv
import Verif.Props.UniTsv
import Verif.Model.LmBackoff
import Verif.Lemmas.LmBackoff
import Verif.Props.LmBackoff
import Verif.Model.LmPieces
import Verif.Lemmas.LmPieces
import Verif.Props.LmPieces
import Verif.Model.LmPosterior
import Verif.Lemmas.LmPosterior
import Verif.Props.LmPosterior
import Verif.Model.LmPairs
import Verif.Lemmas.LmPairs
import Verif.Props.LmPairs
import Verif.Model.WordpieceText
import Verif.Lemmas.WordpieceText
import Verif.Props.WordpieceText
import Verif.Model.ThingValue
import Verif.Props.ThingValue
import Verif.Model.TextFile
import Verif.Props.TextFile
import Verif.Model.Language
import Verif.Props.Language
import Verif.Model.Grm2Best
import Verif.Lemmas.Grm2Best
import Verif.Props.Grm2Best
import Verif.Model.ExprStr
import Verif.Lemmas.ExprStr
import Verif.Props.ExprStr
import Verif.Model.AspectSets
import Verif.Props.AspectSets
import Verif.Model.SymTab
import Verif.Lemmas.SymTab
import Verif.Props.SymTab
import Verif.Model.AtomicId
import Verif.Props.AtomicId
import Verif.Model.SymDoc
import Verif.Lemmas.SymDoc
import Verif.Props.SymDoc
