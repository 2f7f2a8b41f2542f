import Verif.Model.Constants
import Verif.Model.GameInfo
import Verif.Model.Tokens
import Verif.Props.MeldCodec
import Verif.Props.MeldCanon
import Verif.Props.MeldLog
import Verif.Props.Tokens
import Verif.Props.Embedding
import Verif.Props.Calls
import Verif.Props.Agari
import Verif.Props.Xml
import Verif.Props.RoundTiles
import Verif.Props.RoundOrder
import Verif.Props.RoundFlags
import Verif.Props.RoundAsk
import Verif.Props.RoundTurns
import Verif.Props.Tensors
import Verif.Props.Loader
import Verif.Props.Checkpoints
import Verif.Props.Schedule
import Verif.Props.Positions
import Verif.Props.Training
import Verif.Props.Shanten
import Verif.Props.ShantenTenpai
import Verif.Props.ShantenBounds
import Verif.Props.Network
import Verif.Props.Pipeline
import Verif.Props.Builds
import Verif.Props.LogFile
import Verif.Props.RoundOffers
import Verif.Props.RoundTable
import Verif.Props.RoundFirst
import Verif.Props.RoundWins
import Verif.Props.RoundSpecial
import Verif.Spec.Legal
import Verif.Spec.Moment
import Verif.Spec.CallMarks
import Verif.Props.RoundLegal
import Verif.Props.RoundMoment
import Verif.Props.RoundCalls
import Verif.Spec.Shown
import Verif.Props.RoundShown
import Verif.Spec.WinTile
import Verif.Props.RoundWinTile
import Verif.Proofs.ShantenNear
import Verif.Proofs.ShantenStep
import Verif.Props.ShantenMinimal
import Verif.Spec.Questions
import Verif.Proofs.Transfer
import Verif.Proofs.Questions
import Verif.Props.RoundQuestions
import Verif.Spec.Epoch
import Verif.Props.Epoch
import Verif.Spec.Layers
import Verif.Props.Layers
import Verif.Props.EventOrder
import Verif.Props.Convolution
import Verif.Props.StateSeen
import Verif.Model.Dropout
import Verif.Props.Dropout
import Verif.Model.Fresh
import Verif.Props.Fresh
import Verif.Props.OrderFree
import Verif.Spec.RulesCheck
import Verif.Proofs.RulesCheck
import Verif.Data.TestGame
import Verif.Data.SampleGame
import Verif.Props.SampleGames
import Verif.Spec.Moves
import Verif.Proofs.Moves
import Verif.Props.Gradient
import Verif.Model.Optimizer
import Verif.Props.Optimizer
import Verif.Proofs.ShantenSuits
import Verif.Props.ShantenSymmetry
import Verif.Model.DataFiles
import Verif.Props.DataFiles
import Verif.Spec.View
import Verif.Proofs.View
import Verif.Props.RoundView
import Verif.Props.RoundSeats
import Verif.Model.RoundFloat
import Verif.Proofs.Float
import Verif.Props.RoundFloat
import Verif.Props.Alone
import Verif.Model.Command
import Verif.Props.Command
import Verif.Model.Program
import Verif.Props.Program
import Verif.Data.UnitTests
import Verif.Model.LossFloat
import Verif.Props.LossFloat
import Verif.Model.SampleFloat
import Verif.Props.SampleFloat
import Verif.Props.TableRows
import Verif.Props.Influence
import Verif.Props.Learning
import Verif.Props.Decisions
import Verif.Spec.Suits
import Verif.Proofs.SuitCodes
import Verif.Proofs.SuitOffers
import Verif.Proofs.Suits
import Verif.Props.RoundSuits
import Verif.Spec.Honours
import Verif.Props.RoundHonours
import Verif.Spec.Balance
import Verif.Props.RoundBalance
import Verif.Spec.Mirror
import Verif.Props.CallMirror
import Verif.Spec.Tale
import Verif.Props.RoundTale
import Verif.Model.TrainLog
import Verif.Spec.TrainTold
import Verif.Props.TrainLog
import Verif.Spec.Missing
import Verif.Props.ShantenMissing
import Verif.Props.ShantenForms
import Verif.Model.Printing
import Verif.Spec.Printed
import Verif.Props.Printing
import Verif.Props.Verbose
import Verif.Spec.Copies
import Verif.Proofs.CopyCodes
import Verif.Proofs.Copies
import Verif.Props.RoundCopies
import Verif.Model.StateDict
import Verif.Props.StateDict
import Verif.Model.PyInt
import Verif.Props.PyInt
import Verif.Model.Examples
import Verif.Props.Examples
import Verif.Props.Reported
import Verif.Props.Amount
import Verif.Props.Share
import Verif.Props.Looks
import Verif.Props.StateBatch
import Verif.Props.Swapped
import Verif.Props.Distinct
import Verif.Props.PrintedNumbers
import Verif.Props.FreshEncoder
import Verif.Props.Seats
import Verif.Props.Together
import Verif.Props.Bottleneck
