import Verif.Lemmas.Accept
import Verif.Lemmas.Acled
import Verif.Lemmas.AddTables
import Verif.Lemmas.Alone
import Verif.Lemmas.AlonePar
import Verif.Lemmas.AloneScore
import Verif.Lemmas.AtRest
import Verif.Lemmas.Bookkeeping
import Verif.Lemmas.Chances
import Verif.Lemmas.Change
import Verif.Lemmas.ChangeOps
import Verif.Lemmas.ChangeRuns
import Verif.Lemmas.ChangeScore
import Verif.Lemmas.ChangeWeights
import Verif.Lemmas.Choice
import Verif.Lemmas.Clearing
import Verif.Lemmas.Closures
import Verif.Lemmas.ConflictTable
import Verif.Lemmas.Corrections
import Verif.Lemmas.Coupling
import Verif.Lemmas.Crawl
import Verif.Lemmas.Daily
import Verif.Lemmas.DataFiles
import Verif.Lemmas.DataTable
import Verif.Lemmas.Dates
import Verif.Lemmas.DayTable
import Verif.Lemmas.Days
import Verif.Lemmas.Demographics
import Verif.Lemmas.Depart
import Verif.Lemmas.Distance
import Verif.Lemmas.Draws
import Verif.Lemmas.Exchange
import Verif.Lemmas.Flood
import Verif.Lemmas.Forecast
import Verif.Lemmas.Foresight
import Verif.Lemmas.Frame
import Verif.Lemmas.Fullness
import Verif.Lemmas.History
import Verif.Lemmas.Input
import Verif.Lemmas.InputLinks
import Verif.Lemmas.Inv
import Verif.Lemmas.Keys
import Verif.Lemmas.Kinds
import Verif.Lemmas.Law
import Verif.Lemmas.Layout
import Verif.Lemmas.Leaving
import Verif.Lemmas.Links
import Verif.Lemmas.LocClosure
import Verif.Lemmas.Locality
import Verif.Lemmas.LogDicts
import Verif.Lemmas.LogRows
import Verif.Lemmas.LogRuns
import Verif.Lemmas.Logs
import Verif.Lemmas.MajorRoutes
import Verif.Lemmas.Multiscale
import Verif.Lemmas.Nature
import Verif.Lemmas.Network
import Verif.Lemmas.ParDays
import Verif.Lemmas.ParProgram
import Verif.Lemmas.ParReturn
import Verif.Lemmas.ParRunning
import Verif.Lemmas.ParSeq
import Verif.Lemmas.Parallel
import Verif.Lemmas.ParallelAgents
import Verif.Lemmas.ParallelAlike
import Verif.Lemmas.ParallelCounts
import Verif.Lemmas.ParallelStep
import Verif.Lemmas.Parts
import Verif.Lemmas.PerAgent
import Verif.Lemmas.Power
import Verif.Lemmas.Program
import Verif.Lemmas.Progress
import Verif.Lemmas.Protocol
import Verif.Lemmas.Reach
import Verif.Lemmas.Refine
import Verif.Lemmas.Retrofit
import Verif.Lemmas.Rounding
import Verif.Lemmas.Running
import Verif.Lemmas.SameRoute
import Verif.Lemmas.Sample
import Verif.Lemmas.SamplePar
import Verif.Lemmas.Scaling
import Verif.Lemmas.Schedule
import Verif.Lemmas.Scoring
import Verif.Lemmas.Search
import Verif.Lemmas.Settings
import Verif.Lemmas.Shunned
import Verif.Lemmas.Sinks
import Verif.Lemmas.Spawn
import Verif.Lemmas.Speed
import Verif.Lemmas.Steady
import Verif.Lemmas.Step
import Verif.Lemmas.Still
import Verif.Lemmas.Stints
import Verif.Lemmas.Terminate
import Verif.Lemmas.Totals
import Verif.Lemmas.Util
import Verif.Lemmas.Validation
import Verif.Lemmas.Version
import Verif.Lemmas.Waiting
import Verif.Lemmas.Weather
import Verif.Model.Acled
import Verif.Model.AgentText
import Verif.Model.Analysis
import Verif.Model.Attributes
import Verif.Model.Basic
import Verif.Model.CompareCamps
import Verif.Model.CompareOut
import Verif.Model.Configure
import Verif.Model.Coupling
import Verif.Model.Crawling
import Verif.Model.DataFiles
import Verif.Model.DataTable
import Verif.Model.Dates
import Verif.Model.Demographics
import Verif.Model.Eco
import Verif.Model.Flood
import Verif.Model.Forecast
import Verif.Model.Geo
import Verif.Model.Input
import Verif.Model.LocType
import Verif.Model.Logs
import Verif.Model.MajorPath
import Verif.Model.MapLists
import Verif.Model.Moving
import Verif.Model.Multiscale
import Verif.Model.Network
import Verif.Model.Override
import Verif.Model.ParProgram
import Verif.Model.Parallel
import Verif.Model.ParallelStep
import Verif.Model.Program
import Verif.Model.Protocol
import Verif.Model.ReadLogs
import Verif.Model.Scoring
import Verif.Model.Settings
import Verif.Model.Sinks
import Verif.Model.Spawning
import Verif.Model.State
import Verif.Model.TestRuns
import Verif.Model.Travel
import Verif.Model.UqOutput
import Verif.Model.Validation
import Verif.Model.Version
import Verif.Model.Weather
import Verif.Model.WebFigures
import Verif.Props.Accept
import Verif.Props.Acled
import Verif.Props.AgentText
import Verif.Props.Alone
import Verif.Props.Analysis
import Verif.Props.Answers
import Verif.Props.Attributes
import Verif.Props.Bookkeeping
import Verif.Props.Chances
import Verif.Props.Choice
import Verif.Props.Clearing
import Verif.Props.Compare
import Verif.Props.CompareCamps
import Verif.Props.CompareOut
import Verif.Props.Coupling
import Verif.Props.Crawling
import Verif.Props.Data
import Verif.Props.DataFiles
import Verif.Props.Dates
import Verif.Props.Decay
import Verif.Props.Demographics
import Verif.Props.Departure
import Verif.Props.FirstRules
import Verif.Props.FixedRoutes
import Verif.Props.Flood
import Verif.Props.FloodPage
import Verif.Props.FloodRuns
import Verif.Props.Forecast
import Verif.Props.Foresight
import Verif.Props.Fullness
import Verif.Props.Geo
import Verif.Props.Input
import Verif.Props.Keys
import Verif.Props.Kinds
import Verif.Props.Lag
import Verif.Props.Law
import Verif.Props.Leaving
import Verif.Props.Locality
import Verif.Props.Logs
import Verif.Props.MajorPath
import Verif.Props.MajorRoutes
import Verif.Props.MapLists
import Verif.Props.Multiscale
import Verif.Props.Network
import Verif.Props.NoVersion
import Verif.Props.Override
import Verif.Props.ParProgram
import Verif.Props.Parallel
import Verif.Props.ParallelAdd
import Verif.Props.ParallelDepart
import Verif.Props.ParallelStep
import Verif.Props.Parts
import Verif.Props.Population
import Verif.Props.Power
import Verif.Props.Preferences
import Verif.Props.Program
import Verif.Props.Progress
import Verif.Props.Protocol
import Verif.Props.ReadLogs
import Verif.Props.Refine
import Verif.Props.RouteChance
import Verif.Props.Routes
import Verif.Props.SameRoute
import Verif.Props.Scaling
import Verif.Props.Scoring
import Verif.Props.Settings
import Verif.Props.Shunned
import Verif.Props.Sinks
import Verif.Props.Spawning
import Verif.Props.Starts
import Verif.Props.Steady
import Verif.Props.Stints
import Verif.Props.Styles
import Verif.Props.Tables
import Verif.Props.Termination
import Verif.Props.Travel
import Verif.Props.UqOutput
import Verif.Props.Validation
import Verif.Props.Version
import Verif.Props.Waiting
import Verif.Props.Weather
import Verif.Props.WebFigures
import Verif.Props.Weights
import Verif.Spec.Accept
import Verif.Spec.Acled
import Verif.Spec.Alone
import Verif.Spec.Attributes
import Verif.Spec.Chances
import Verif.Spec.Choice
import Verif.Spec.Clearing
import Verif.Spec.Compare
import Verif.Spec.CompareCamps
import Verif.Spec.CompareOut
import Verif.Spec.Counting
import Verif.Spec.Coupling
import Verif.Spec.Crawl
import Verif.Spec.Data
import Verif.Spec.Dates
import Verif.Spec.Decay
import Verif.Spec.Demographics
import Verif.Spec.Depart
import Verif.Spec.Flood
import Verif.Spec.Forecast
import Verif.Spec.Foresight
import Verif.Spec.Fullness
import Verif.Spec.Geo
import Verif.Spec.History
import Verif.Spec.Input
import Verif.Spec.Keys
import Verif.Spec.Kinds
import Verif.Spec.Lag
import Verif.Spec.Law
import Verif.Spec.Leaving
import Verif.Spec.Locality
import Verif.Spec.Logs
import Verif.Spec.MapLists
import Verif.Spec.Multiscale
import Verif.Spec.Network
import Verif.Spec.Override
import Verif.Spec.ParProgram
import Verif.Spec.Parallel
import Verif.Spec.ParallelStep
import Verif.Spec.Parts
import Verif.Spec.Population
import Verif.Spec.Power
import Verif.Spec.Preferences
import Verif.Spec.Program
import Verif.Spec.Progress
import Verif.Spec.Protocol
import Verif.Spec.ReadLogs
import Verif.Spec.Refine
import Verif.Spec.Rounding
import Verif.Spec.RouteChance
import Verif.Spec.Routes
import Verif.Spec.SameRoute
import Verif.Spec.Scaling
import Verif.Spec.Scoring
import Verif.Spec.Settings
import Verif.Spec.Shunned
import Verif.Spec.Sinks
import Verif.Spec.Starts
import Verif.Spec.Steady
import Verif.Spec.Stints
import Verif.Spec.Styles
import Verif.Spec.Travel
import Verif.Spec.UqOutput
import Verif.Spec.Validation
import Verif.Spec.Version
import Verif.Spec.Waiting
import Verif.Spec.Weather
import Verif.Spec.Weights
