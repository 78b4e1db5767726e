import Verif.Model.Basic
import Verif.Model.Sampling
import Verif.Props.Sampling
import Verif.Model.Time
import Verif.Props.TimeRead
import Verif.Props.TimeProc
import Verif.Props.TimePoint
import Verif.Props.Decimate
import Verif.Props.Window
import Verif.Props.Windower
import Verif.Props.Spectra
import Verif.Props.Gather
import Verif.Props.GatherData
import Verif.Props.Regression
import Verif.Props.Solution
import Verif.Props.Robust
import Verif.Props.RegressionSpectra
import Verif.Props.TransFunc
import Verif.Props.History
import Verif.Props.HistoryCalls
import Verif.Props.HistorySession
import Verif.Props.FilesCrash
import Verif.Props.Calibrate
import Verif.Props.CalText
import Verif.Props.Fourier
import Verif.Model.Project
import Verif.Props.Project
import Verif.Props.ProjectFiles
import Verif.Props.ProjectCreate
import Verif.Props.ProjectPaths
import Verif.Props.ProjectDemo
import Verif.Model.Registry
import Verif.Props.Registry
import Verif.Model.Process
import Verif.Props.Process
import Verif.Props.Evals
import Verif.Props.Linear
import Verif.Props.EndToEnd
import Verif.Props.EndToEndDemo
import Verif.Model.Plot
import Verif.Props.Plot
import Verif.Model.DateText
import Verif.Props.DateText
import Verif.Model.Float64
import Verif.Props.Float64
import Verif.Model.Timestamps
import Verif.Props.Timestamps
import Verif.Props.Quick
import Verif.Props.ProcessTime
import Verif.Props.Remote
import Verif.Props.RemoteDemo
import Verif.Model.Show
import Verif.Props.Show
import Verif.Model.Solvers
import Verif.Props.Solvers
import Verif.Model.Default
import Verif.Props.Default
import Verif.Props.DefaultDemo
import Verif.Model.SpecPlot
import Verif.Props.SpecPlot
import Verif.Model.Channels
import Verif.Props.Channels
import Verif.Model.Timeline
import Verif.Props.Timeline
import Verif.Model.Environment
import Verif.Props.Environment
import Verif.Props.EnvSession
import Verif.Props.EnvDemo
import Verif.Model.Generated
import Verif.Props.Generated
import Verif.Model.Phase
import Verif.Model.Tables
import Verif.Props.Phase
import Verif.Props.Tables
import Verif.Model.Records
import Verif.Props.Records
import Verif.Props.Chosen
import Verif.Props.ChosenChain
import Verif.Model.OneChan
import Verif.Props.OneChan
import Verif.Model.FloatText
import Verif.Props.FloatText
import Verif.Model.Json
import Verif.Props.Json
import Verif.Model.MetaText
import Verif.Props.MetaText
import Verif.Props.MetaFiles
import Verif.Model.Memory
import Verif.Props.Memory
import Verif.Props.MemorySession
import Verif.Model.TextData
import Verif.Lemmas.Single
import Verif.Props.TextData
import Verif.Props.TextFiles
import Verif.Props.TextDemo
import Verif.Model.Setup64
import Verif.Lemmas.Fl
import Verif.Props.Setup64
import Verif.Props.SetupLadder
import Verif.Props.SetupWindows
import Verif.Props.Factor64
import Verif.Model.NumTypes
import Verif.Props.NumTypes
import Verif.Props.NumMean
import Verif.Props.NumShift
import Verif.Props.NumLost
import Verif.Props.NumDemo
import Verif.Model.CalChars
import Verif.Props.CalChars
import Verif.Props.CalCut
import Verif.Props.CalJson
import Verif.Props.CalTrip
import Verif.Props.CalDemo
import Verif.Model.Parallel
import Verif.Props.Parallel
import Verif.Props.ParallelRun
import Verif.Props.ParallelRace
import Verif.Model.Eval64
import Verif.Props.Eval64
import Verif.Props.Eval64Run
import Verif.Model.Robust64
import Verif.Props.Robust64
import Verif.Model.Listing
import Verif.Props.Order
import Verif.Props.OrderDemo
import Verif.Model.Smooth64
import Verif.Props.Smooth64
import Verif.Props.Smooth64Run
import Verif.Model.Powers64
import Verif.Props.Powers64
import Verif.Props.PowersSpectra64
import Verif.Model.Cal64
import Verif.Model.Phase64
import Verif.Model.Fourier64
import Verif.Props.Cal64
import Verif.Props.Cal64Run
import Verif.Props.Accuracy
import Verif.Props.AccuracyRobust
import Verif.Props.AccuracyChain
import Verif.Props.Phase64
import Verif.Props.Fourier64
import Verif.Props.FourierEval64
import Verif.Props.FourierAccuracy
