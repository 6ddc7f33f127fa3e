import Verif.Py.Dict
import Verif.Py.Round
import Verif.Py.List
import Verif.Model.Ticket
import Verif.Model.FailManager
import Verif.Lemmas.FailManager
import Verif.Spec.FailManager
import Verif.Props.FailManager
import Verif.Model.BanManager
import Verif.Spec.BanManager
import Verif.Lemmas.BanManager
import Verif.Props.BanManager
import Verif.Model.Actions
import Verif.Spec.Actions
import Verif.Lemmas.Actions
import Verif.Props.Actions
import Verif.Props.Unban
import Verif.Props.Loop
import Verif.Props.Applied
import Verif.Props.ActionReload
import Verif.Props.ActionsMore
import Verif.Props.Cache
import Verif.Lemmas.NetLibSample
import Verif.Props.IPAddr
import Verif.Props.PTR
import Verif.Props.Ignore
import Verif.Props.Filter
import Verif.Props.Limit
import Verif.Model.Database
import Verif.Spec.Database
import Verif.Lemmas.Database
import Verif.Props.Database
import Verif.Model.Jail
import Verif.Model.Observer
import Verif.Props.BanTime
import Verif.Spec.Restart
import Verif.Props.Restart
import Verif.Spec.Observer
import Verif.Props.Observer
import Verif.Model.FileContainer
import Verif.Spec.LogFile
import Verif.Lemmas.FileContainer
import Verif.Props.LogFile
import Verif.Lemmas.Codecs
import Verif.Model.SeekTime
import Verif.Props.SeekTime
import Verif.Model.Tags
import Verif.Spec.Tags
import Verif.Lemmas.Tags
import Verif.Lemmas.TagsLoop
import Verif.Props.Tags
import Verif.Lemmas.TagsPlain
import Verif.Model.Command
import Verif.Spec.Shell
import Verif.Lemmas.Command
import Verif.Props.Command
import Verif.Props.Query
import Verif.Model.CommandAction
import Verif.Spec.CommandAction
import Verif.Lemmas.CommandAction
import Verif.Lemmas.CommandItems
import Verif.Lemmas.CommandSegments
import Verif.Lemmas.CommandRetry
import Verif.Props.CommandAction
import Verif.Model.Framing
import Verif.Spec.Framing
import Verif.Lemmas.Framing
import Verif.Lemmas.FramingServe
import Verif.Props.Framing
import Verif.Model.Server
import Verif.Lemmas.ServerView
import Verif.Spec.Server
import Verif.Lemmas.ServerConf
import Verif.Lemmas.ServerOutcome
import Verif.Props.Server
import Verif.Model.Config
import Verif.Spec.Config
import Verif.Lemmas.ConfigMerge
import Verif.Lemmas.ConfigIncludes
import Verif.Lemmas.ConfigValues
import Verif.Props.Config
import Verif.Model.FindFailure
import Verif.Spec.FindFailure
import Verif.Lemmas.FindGroups
import Verif.Lemmas.FindMerge
import Verif.Lemmas.FindConn
import Verif.Lemmas.FindLine
import Verif.Props.FindFailure
import Verif.Model.Dates
import Verif.Spec.Dates
import Verif.Lemmas.DatesCalendar
import Verif.Lemmas.DatesFields
import Verif.Lemmas.DatesResolve
import Verif.Lemmas.DatesAssume
import Verif.Props.Dates
import Verif.Model.Detector
import Verif.Spec.Detector
import Verif.Lemmas.Detector
import Verif.Lemmas.DetectorOrder
import Verif.Props.Detector
import Verif.Model.Duration
import Verif.Spec.Duration
import Verif.Lemmas.Duration
import Verif.Lemmas.DurationText
import Verif.Lemmas.DurationSum
import Verif.Lemmas.DurationShown
import Verif.Props.Duration
import Verif.Model.ReaderServer
import Verif.Model.Reader
import Verif.Spec.Reader
import Verif.Lemmas.Reader
import Verif.Lemmas.ReaderStream
import Verif.Lemmas.ReaderValues
import Verif.Lemmas.ReaderOptions
import Verif.Lemmas.ReaderOrder
import Verif.Lemmas.ReaderServer
import Verif.Props.Reader
import Verif.Model.Regex
import Verif.Model.Options
import Verif.Spec.Options
import Verif.Lemmas.Regex
import Verif.Lemmas.Options
import Verif.Lemmas.OptionsSplit
import Verif.Props.Options
import Verif.Model.ActionReader
import Verif.Spec.ActionReader
import Verif.Lemmas.ActionReader
import Verif.Lemmas.ActionServer
import Verif.Props.ActionReader
import Verif.Model.Poll
import Verif.Spec.Poll
import Verif.Lemmas.Poll
import Verif.Props.Poll
import Verif.Model.Inotify
import Verif.Spec.Inotify
import Verif.Lemmas.Inotify
import Verif.Props.Inotify
import Verif.Model.Journal
import Verif.Spec.Journal
import Verif.Lemmas.Journal
import Verif.Props.Journal
import Verif.Model.JournalRun
import Verif.Spec.JournalRun
import Verif.Lemmas.JournalRun
import Verif.Props.JournalRun
import Verif.Model.ObserverQueue
import Verif.Spec.ObserverQueue
import Verif.Lemmas.ObserverQueue
import Verif.Lemmas.ObserverStop
import Verif.Props.ObserverQueue
import Verif.Model.FailTags
import Verif.Spec.FailTags
import Verif.Lemmas.FailTags
import Verif.Props.FailTags
import Verif.Model.FailGroups
import Verif.Spec.FailGroups
import Verif.Lemmas.FailGroups
import Verif.Props.FailGroups
import Verif.Model.Execute
import Verif.Spec.Execute
import Verif.Lemmas.Execute
import Verif.Props.Execute
import Verif.Model.Settings
import Verif.Spec.Settings
import Verif.Lemmas.Settings
import Verif.Props.Settings
import Verif.Model.Upgrade
import Verif.Spec.Upgrade
import Verif.Lemmas.Upgrade
import Verif.Props.Upgrade
import Verif.Model.FileSet
import Verif.Spec.FileSet
import Verif.Lemmas.FileSet
import Verif.Props.FileSet
import Verif.Model.Dns
import Verif.Spec.Dns
import Verif.Lemmas.Dns
import Verif.Props.Dns
import Verif.Model.RegexTool
import Verif.Spec.RegexTool
import Verif.Lemmas.RegexTool
import Verif.Props.RegexTool
import Verif.Model.Logging
import Verif.Spec.Logging
import Verif.Lemmas.Logging
import Verif.Props.Logging
import Verif.Model.AllJails
import Verif.Props.AllJails
import Verif.Model.Shutdown
import Verif.Spec.Shutdown
import Verif.Props.Shutdown
import Verif.Model.EventLoop
import Verif.Spec.EventLoop
import Verif.Props.EventLoop
import Verif.Props.Client
import Verif.Props.ActionInfo
import Verif.Props.DatePattern
import Verif.Props.Backend
import Verif.Props.Locks
import Verif.Props.Json
import Verif.Props.Beautify
import Verif.Props.CmdLine
import Verif.Props.Years
import Verif.Props.DefaultDates
import Verif.Props.WordBounds
import Verif.Props.StartArgs
import Verif.Props.StartPhases
import Verif.Props.General
import Verif.Props.Googlebot
import Verif.Props.Smtp
import Verif.Props.RegexOut
import Verif.Props.RegexLoad
import Verif.Props.Daemon
import Verif.Props.RegexName
import Verif.Props.BgService
import Verif.Props.JournalArgs
import Verif.Props.TicketData
import Verif.Props.Dispatch
import Verif.Props.Interactive
import Verif.Props.Cymru
import Verif.Props.SafeLog
import Verif.Props.WarnOnce
import Verif.Props.Share
import Verif.Props.CombOption
import Verif.Props.Pending
