import Verif.Model.Py
import Verif.Lemmas.Py
import Verif.Model.Schedulers
import Verif.Spec.Schedulers
import Verif.Lemmas.Schedulers
import Verif.Lemmas.GroupScheduler
import Verif.Props.Schedulers
import Verif.Model.Common
import Verif.Spec.Go
import Verif.Model.Board
import Verif.Lemmas.GoConn
import Verif.Lemmas.BoardBasic
import Verif.Lemmas.BoardFill
import Verif.Lemmas.BoardPlay
import Verif.Lemmas.BoardRules
import Verif.Lemmas.BoardSetup
import Verif.Props.Board
import Verif.Model.Text
import Verif.Model.Vertex
import Verif.Model.Handicap
import Verif.Model.AsciiBoard
import Verif.Lemmas.Text
import Verif.Props.Vertex
import Verif.Lemmas.AsciiBoard
import Verif.Props.AsciiBoard
import Verif.Model.SgfGrammar
import Verif.Spec.Sgf
import Verif.Lemmas.SgfLex
import Verif.Lemmas.SgfParse
import Verif.Lemmas.SgfTotal
import Verif.Model.SgfText
import Verif.Model.SgfProps
import Verif.Props.SgfGrammar
import Verif.Spec.SgfText
import Verif.Lemmas.SgfText
import Verif.Props.SgfText
import Verif.Model.SgfTree
import Verif.Spec.SgfTree
import Verif.Lemmas.SgfTree
import Verif.Spec.SgfEdit
import Verif.Lemmas.SgfEdit
import Verif.Props.SgfTree
import Verif.Model.GameRunner
import Verif.Props.Game
import Verif.Props.Score
import Verif.Props.GameRunner
import Verif.Model.GtpChannel
import Verif.Spec.Gtp
import Verif.Lemmas.GtpChannel
import Verif.Props.Gtp
import Verif.Model.SgfMoves
import Verif.Model.GtpState
import Verif.Lemmas.GtpState
import Verif.Props.GtpState
import Verif.Props.GtpTold
import Verif.Model.JobManager
import Verif.Spec.Jobs
import Verif.Lemmas.Jobs
import Verif.Props.Jobs
import Verif.Model.Tournament
import Verif.Model.Ringmaster
import Verif.Model.TournamentResults
import Verif.Spec.Tournament
import Verif.Lemmas.GameId
import Verif.Props.Tournament
import Verif.Props.AllPlayAll
import Verif.Lemmas.Tournament
import Verif.Lemmas.Ringmaster
import Verif.Lemmas.RingmasterEnd
import Verif.Lemmas.RingmasterErrors
import Verif.Props.Ringmaster
import Verif.Model.Mcts
import Verif.Model.LogScale
import Verif.Spec.Mcts
import Verif.Lemmas.Mcts
import Verif.Props.Mcts
import Verif.Props.MctsTuner
import Verif.Props.Scale
import Verif.Spec.SgfCodec
import Verif.Lemmas.SgfCodec
import Verif.Model.SgfNode
import Verif.Spec.SgfNode
import Verif.Lemmas.SgfNode
import Verif.Props.SgfNode
import Verif.Model.SgfGame
import Verif.Spec.SgfGame
import Verif.Lemmas.SgfGame
import Verif.Lemmas.SgfTranscode
import Verif.Lemmas.SgfTransText
import Verif.Lemmas.SgfTransValue
import Verif.Props.SgfGame
import Verif.Model.SgfRecord
import Verif.Lemmas.SgfRecord
import Verif.Props.SgfRecord
import Verif.Lemmas.SgfRunner
import Verif.Props.SgfRunner
import Verif.Model.GtpSave
import Verif.Lemmas.GtpSave
import Verif.Props.GtpSave
import Verif.Model.GtpController
import Verif.Spec.GtpController
import Verif.Props.GtpController
import Verif.Model.GtpGame
import Verif.Model.GtpProxy
import Verif.Spec.GtpGame
import Verif.Spec.GtpTold
import Verif.Lemmas.GameRule
import Verif.Lemmas.GtpGame
import Verif.Lemmas.GtpScore
import Verif.Lemmas.GtpBackend
import Verif.Props.GtpGame
import Verif.Props.GtpRead
import Verif.Props.GtpProxy
import Verif.Spec.GameTrack
import Verif.Lemmas.GameTrack
import Verif.Spec.GtpTranscript
import Verif.Lemmas.GtpTranscript
import Verif.Props.GtpTranscript
import Verif.Model.GtpPlayer
import Verif.Spec.GtpLockstep
import Verif.Lemmas.GtpLockstep
import Verif.Props.GtpLockstep
import Verif.Model.Cem
import Verif.Spec.Cem
import Verif.Props.CemUpdate
import Verif.Lemmas.Cem
import Verif.Props.Cem
import Verif.Spec.SgfInfo
import Verif.Model.SgfInfo
import Verif.Props.SgfInfo
import Verif.Spec.EngineDesc
import Verif.Spec.GameJob
import Verif.Model.EngineDesc
import Verif.Model.GameJob
import Verif.Props.EngineDesc
import Verif.Lemmas.GameJobSgf
import Verif.Props.GameJobSgf
import Verif.Lemmas.GameTexts
import Verif.Lemmas.GtpTexts
import Verif.Lemmas.JobGame
import Verif.Props.GameJob
import Verif.Lemmas.JobTotal
import Verif.Props.JobTotal
import Verif.Spec.PlayerCheck
import Verif.Props.PlayerCheck
import Verif.Model.Settings
import Verif.Model.Playoff
import Verif.Spec.Settings
import Verif.Lemmas.Settings
import Verif.Props.Settings
import Verif.Lemmas.Players
import Verif.Props.Players
import Verif.Spec.Playoff
import Verif.Lemmas.Playoff
import Verif.Props.Playoff
import Verif.Model.Allplayall
import Verif.Spec.Allplayall
import Verif.Props.RoundRobin
import Verif.Model.ControlFile
import Verif.Spec.ControlFile
import Verif.Lemmas.ControlFile
import Verif.Props.ControlFile
import Verif.Model.RingFiles
import Verif.Spec.RingFiles
import Verif.Props.RingFiles
import Verif.Props.RingRun
import Verif.Model.CommandLine
import Verif.Spec.CommandLine
import Verif.Props.CommandLine
import Verif.Model.Table
import Verif.Spec.Table
import Verif.Props.Table
import Verif.Model.Reports
import Verif.Spec.Reports
import Verif.Props.Reports
import Verif.Model.TunerConfig
import Verif.Spec.TunerConfig
import Verif.Props.TunerConfig
import Verif.Props.Candidates
import Verif.Props.FullRun
import Verif.Model.MctsReports
import Verif.Spec.MctsReports
import Verif.Lemmas.MctsReports
import Verif.Props.MctsReports
import Verif.Model.CemReports
import Verif.Spec.CemReports
import Verif.Props.CemReports
import Verif.Model.RingAny
import Verif.Spec.RingAny
import Verif.Lemmas.RingAny
import Verif.Props.RingAny
import Verif.Model.MctsRing
import Verif.Spec.RingStory
import Verif.Spec.MctsRing
import Verif.Lemmas.RingEffect
import Verif.Props.MctsRing
import Verif.Model.CemRing
import Verif.Spec.CemRing
import Verif.Props.CemRing
import Verif.Model.ResultsApi
import Verif.Spec.ResultsApi
import Verif.Props.ResultsApi
import Verif.Model.GtpSession
import Verif.Spec.GtpSession
import Verif.Props.GtpSession
import Verif.Spec.MctsExplore
import Verif.Props.MctsExplore
import Verif.Props.RingWorkers
import Verif.Props.MctsExploreRing
import Verif.Model.GtpStateEngine
import Verif.Spec.GtpStateEngine
import Verif.Props.GtpStateEngine
import Verif.Model.RingLive
import Verif.Spec.RingLive
import Verif.Lemmas.RingLive
import Verif.Lemmas.RingLiveRun
import Verif.Props.RingLive
import Verif.Props.RingScreen
import Verif.Model.TournRing
import Verif.Spec.TournRing
import Verif.Lemmas.TournRing
import Verif.Props.TournRing
import Verif.Model.KgsProxy
import Verif.Spec.KgsProxy
import Verif.Props.KgsProxy
import Verif.Model.Scripts
import Verif.Spec.Scripts
import Verif.Props.Scripts
import Verif.Model.Clop
import Verif.Spec.Clop
import Verif.Props.Clop
import Verif.Spec.MoveCallback
import Verif.Props.MoveCallback
import Verif.Model.TwoGtp
import Verif.Spec.TwoGtp
import Verif.Props.TwoGtp
import Verif.Spec.TwoGtpSgf
import Verif.Lemmas.TwoGtpSgf
import Verif.Props.TwoGtpSgf
import Verif.Model.StatefulPlayer
import Verif.Spec.StatefulPlayer
import Verif.Props.StatefulPlayer
import Verif.Model.TestPlayer
import Verif.Spec.TestPlayer
import Verif.Props.TestPlayer
import Verif.Model.MogoWrapper
import Verif.Props.MogoWrapper
