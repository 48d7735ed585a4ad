import Verif.Basic.Bytes
import Verif.Basic.FqPrime
import Verif.Basic.FrPrime
import Verif.Basic.Pos
import Verif.Basic.Reader
import Verif.Basic.Res
import Verif.Basic.Str
import Verif.Model.Api
import Verif.Model.Bn254
import Verif.Model.CS
import Verif.Model.Circom
import Verif.Model.CircuitFiles
import Verif.Model.CliErrors
import Verif.Model.CommandLine
import Verif.Model.Commands
import Verif.Model.Container
import Verif.Model.Crypto
import Verif.Model.Curve
import Verif.Model.CurveCodec
import Verif.Model.Documented
import Verif.Model.History
import Verif.Model.Inputs
import Verif.Model.JsCalls
import Verif.Model.JsErrors
import Verif.Model.JsErrorsEncrypt
import Verif.Model.JsLimit
import Verif.Model.JsStrings
import Verif.Model.JsonText
import Verif.Model.Legacy
import Verif.Model.Mimc
import Verif.Model.Parallel
import Verif.Model.Playground
import Verif.Model.Printing
import Verif.Model.Prog
import Verif.Model.Qap
import Verif.Model.R1csParse
import Verif.Model.R1csTypes
import Verif.Model.Serializable
import Verif.Model.SerializableFiles
import Verif.Model.SerializableJson
import Verif.Model.Serialize
import Verif.Model.SignatureR1cs
import Verif.Model.Sudoku
import Verif.Model.SudokuCert
import Verif.Model.SudokuR1cs
import Verif.Model.Sym
import Verif.Model.TestFixture
import Verif.Model.WasmInit
import Verif.Model.Witness
import Verif.Model.WitnessCalc
import Verif.Model.WitnessCalcJs
import Verif.Model.Wkem
import Verif.Model.WtnsParse
import Verif.Model.WtnsWrite
import Verif.Proofs.Bn254
import Verif.Proofs.Circom
import Verif.Proofs.CircomSynth
import Verif.Proofs.CliErrors
import Verif.Proofs.CommandLine
import Verif.Proofs.Commands
import Verif.Proofs.Core
import Verif.Proofs.Curve
import Verif.Proofs.EndToEnd
import Verif.Proofs.G1Cert
import Verif.Proofs.G1Order
import Verif.Proofs.G2Card
import Verif.Proofs.G2Cert
import Verif.Proofs.G2Order
import Verif.Proofs.Gcm
import Verif.Proofs.Gf128
import Verif.Proofs.Gf128Field
import Verif.Proofs.History
import Verif.Proofs.InputOrder
import Verif.Proofs.Inputs
import Verif.Proofs.JsStrings
import Verif.Proofs.JsStringsAgree
import Verif.Proofs.JsStringsClean
import Verif.Proofs.JsStringsMeans
import Verif.Proofs.JsStringsText
import Verif.Proofs.JsStringsUse
import Verif.Proofs.JsonExt
import Verif.Proofs.JsonGrammar
import Verif.Proofs.JsonRead
import Verif.Proofs.JsonText
import Verif.Proofs.Parallel
import Verif.Proofs.Pos
import Verif.Proofs.Printing
import Verif.Proofs.PrintingCmp
import Verif.Proofs.Qap
import Verif.Proofs.R1csParse
import Verif.Proofs.R1csParseJs
import Verif.Proofs.SerializableJson
import Verif.Proofs.SerializableTree
import Verif.Proofs.Str
import Verif.Proofs.Sym
import Verif.Proofs.WitnessCalc
import Verif.Proofs.Wkem
import Verif.Proofs.WkemAlg
import Verif.Proofs.WtnsParse
import Verif.Proofs.WtnsParseJs
import Verif.Props.AppliedCircuits
import Verif.Props.AppliedCliErrors
import Verif.Props.AppliedCommands
import Verif.Props.AppliedCompose
import Verif.Props.AppliedCore
import Verif.Props.AppliedEndToEnd
import Verif.Props.AppliedFormats
import Verif.Props.AppliedInputs
import Verif.Props.AppliedJsCalls
import Verif.Props.AppliedMore
import Verif.Props.AppliedPlayground
import Verif.Props.AppliedPublicOnly
import Verif.Props.Bincode
import Verif.Props.Bn254
import Verif.Props.Circom
import Verif.Props.CircuitFiles
import Verif.Props.CircuitFilesExample
import Verif.Props.CliErrors
import Verif.Props.CliErrorsReceiver
import Verif.Props.CliErrorsRun
import Verif.Props.CommandLine
import Verif.Props.Commands
import Verif.Props.Compose
import Verif.Props.ComposeExactly
import Verif.Props.ComposeExactlyExample
import Verif.Props.ComposeExample
import Verif.Props.Container
import Verif.Props.Core
import Verif.Props.Crypto
import Verif.Props.Curve
import Verif.Props.Documented
import Verif.Props.EndToEnd
import Verif.Props.EndToEndEnforced
import Verif.Props.EndToEndExactly
import Verif.Props.EndToEndExactlyKem
import Verif.Props.EndToEndExample
import Verif.Props.EndToEndKem
import Verif.Props.EndToEndOutcome
import Verif.Props.EndToEndPublic
import Verif.Props.EndToEndPublicOnly
import Verif.Props.Flatten
import Verif.Props.Gcm
import Verif.Props.History
import Verif.Props.HistoryExample
import Verif.Props.InputOrder
import Verif.Props.InputOrderExample
import Verif.Props.Inputs
import Verif.Props.InputsNested
import Verif.Props.JsCalls
import Verif.Props.JsErrors
import Verif.Props.JsErrorsEncrypt
import Verif.Props.JsErrorsEncryptExample
import Verif.Props.JsErrorsExample
import Verif.Props.JsErrorsFlow
import Verif.Props.JsLimit
import Verif.Props.JsLimitExample
import Verif.Props.JsStrings
import Verif.Props.JsonGrammar
import Verif.Props.JsonText
import Verif.Props.KeyCount
import Verif.Props.KeyOrder
import Verif.Props.KeyOrderExample
import Verif.Props.Legacy
import Verif.Props.Native
import Verif.Props.Parallel
import Verif.Props.ParseMore
import Verif.Props.PlayCustom
import Verif.Props.PlayCustomExample
import Verif.Props.PlaySolve
import Verif.Props.PlaySudoku
import Verif.Props.PlaySudokuExample
import Verif.Props.Playground
import Verif.Props.Printing
import Verif.Props.PrintingExample
import Verif.Props.Program
import Verif.Props.PublicCli
import Verif.Props.Qap
import Verif.Props.QuickStart
import Verif.Props.QuickStartExample
import Verif.Props.R1csAccept
import Verif.Props.R1csParse
import Verif.Props.R1csParseJs
import Verif.Props.R1csParseJsExact
import Verif.Props.ReadMore
import Verif.Props.ReadMoreExample
import Verif.Props.SerdeValue
import Verif.Props.Serializable
import Verif.Props.SerializableFields
import Verif.Props.SerializableJson
import Verif.Props.SerializableLayout
import Verif.Props.Serialize
import Verif.Props.Signature
import Verif.Props.SignatureEndToEnd
import Verif.Props.SignatureExample
import Verif.Props.Sizes
import Verif.Props.Sudoku
import Verif.Props.SudokuEndToEnd
import Verif.Props.SudokuFiles
import Verif.Props.SudokuLc
import Verif.Props.SudokuProgram
import Verif.Props.Sym
import Verif.Props.SymExact
import Verif.Props.TestFixture
import Verif.Props.WasmInit
import Verif.Props.WitnessCalc
import Verif.Props.WitnessCalcJs
import Verif.Props.WitnessLength
import Verif.Props.WtnsAccept
import Verif.Props.WtnsParse
import Verif.Props.WtnsParseJs
import Verif.Props.WtnsParseJsExact
import Verif.Props.WtnsTwoData
import Verif.Spec.Bincode
import Verif.Spec.Bn254
import Verif.Spec.CliErrors
import Verif.Spec.CommandLine
import Verif.Spec.Compiled
import Verif.Spec.Container
import Verif.Spec.Curve
import Verif.Spec.EndToEnd
import Verif.Spec.Gcm
import Verif.Spec.History
import Verif.Spec.InputOrder
import Verif.Spec.Inputs
import Verif.Spec.JsErrors
import Verif.Spec.JsStrings
import Verif.Spec.JsonGrammar
import Verif.Spec.JsonText
import Verif.Spec.Native
import Verif.Spec.Printing
import Verif.Spec.Qap
import Verif.Spec.QuickStart
import Verif.Spec.R1cs
import Verif.Spec.R1csAccept
import Verif.Spec.R1csFormat
import Verif.Spec.R1csPanic
import Verif.Spec.SerdeValue
import Verif.Spec.SerializableLayout
import Verif.Spec.Signature
import Verif.Spec.Sudoku
import Verif.Spec.SudokuProgram
import Verif.Spec.Sym
import Verif.Spec.SymLines
import Verif.Spec.Tool
import Verif.Spec.Toy
import Verif.Spec.WitnessCalc
import Verif.Spec.WtnsAccept
import Verif.Spec.WtnsFormat
import Verif.Spec.WtnsPanic
