import Verif.Basic
import Verif.Lemmas.BlockDoc
import Verif.Lemmas.BlockDocAll
import Verif.Lemmas.BlockDocBroken
import Verif.Lemmas.BlockDocLines
import Verif.Lemmas.BlockDocNul
import Verif.Lemmas.BlogcMemory
import Verif.Lemmas.BlogcMemoryBody
import Verif.Lemmas.BlogcMemoryLoader
import Verif.Lemmas.BlogcMemoryMain
import Verif.Lemmas.BlogcMemoryPages
import Verif.Lemmas.BlogcMemoryRun
import Verif.Lemmas.BlogcMemorySame
import Verif.Lemmas.BlogcMemoryVars
import Verif.Lemmas.Clean
import Verif.Lemmas.Config
import Verif.Lemmas.ConfigControl
import Verif.Lemmas.ConfigLayout
import Verif.Lemmas.ConfigMemory
import Verif.Lemmas.ConfigWrong
import Verif.Lemmas.Content
import Verif.Lemmas.ContentEnds
import Verif.Lemmas.ContentFrame
import Verif.Lemmas.ContentHeaders
import Verif.Lemmas.ContentMarkup
import Verif.Lemmas.ContentPairs
import Verif.Lemmas.ContentSafe
import Verif.Lemmas.Debug
import Verif.Lemmas.Dirname
import Verif.Lemmas.ErrorText
import Verif.Lemmas.GitMemory
import Verif.Lemmas.GitMemoryRun
import Verif.Lemmas.GitMemorySame
import Verif.Lemmas.Heap
import Verif.Lemmas.HeapOps
import Verif.Lemmas.Incremental
import Verif.Lemmas.IncrementalSample
import Verif.Lemmas.Inline
import Verif.Lemmas.InlineDoc
import Verif.Lemmas.InlineMarkup
import Verif.Lemmas.ListLines
import Verif.Lemmas.Listing
import Verif.Lemmas.Loader
import Verif.Lemmas.LoaderCongr
import Verif.Lemmas.LoaderCount
import Verif.Lemmas.LoaderNames
import Verif.Lemmas.MainCongr
import Verif.Lemmas.MainDefined
import Verif.Lemmas.MainNames
import Verif.Lemmas.MakeMemory
import Verif.Lemmas.MakeMemoryContext
import Verif.Lemmas.MakeMemoryMain
import Verif.Lemmas.MakeMemoryNew
import Verif.Lemmas.MakeMemoryRules
import Verif.Lemmas.MakeMemoryRun
import Verif.Lemmas.MakeSite
import Verif.Lemmas.MarkupScan
import Verif.Lemmas.Minimal
import Verif.Lemmas.Mistakes
import Verif.Lemmas.MistakesFail
import Verif.Lemmas.MistakesMain
import Verif.Lemmas.MistakesRead
import Verif.Lemmas.Numbers
import Verif.Lemmas.Page
import Verif.Lemmas.PageRun
import Verif.Lemmas.Path
import Verif.Lemmas.Prog
import Verif.Lemmas.Quiet
import Verif.Lemmas.RemoveMemory
import Verif.Lemmas.Render
import Verif.Lemmas.RenderBare
import Verif.Lemmas.RenderCongr
import Verif.Lemmas.RenderDoc
import Verif.Lemmas.RenderMeasure
import Verif.Lemmas.RenderNames
import Verif.Lemmas.RenderSafe
import Verif.Lemmas.RenderSem
import Verif.Lemmas.RenderSim
import Verif.Lemmas.Run
import Verif.Lemmas.SettingsSample
import Verif.Lemmas.SiteFeed
import Verif.Lemmas.SitePages
import Verif.Lemmas.Sort
import Verif.Lemmas.Source
import Verif.Lemmas.SourceDefined
import Verif.Lemmas.SourceSound
import Verif.Lemmas.SourceTable
import Verif.Lemmas.StaticFiles
import Verif.Lemmas.StaticSample
import Verif.Lemmas.Strings
import Verif.Lemmas.SysVars
import Verif.Lemmas.Template
import Verif.Lemmas.TemplateBr
import Verif.Lemmas.TemplateInfix
import Verif.Lemmas.TemplateItems
import Verif.Lemmas.TemplateMemory
import Verif.Lemmas.TemplateMemoryMain
import Verif.Lemmas.TemplateMemoryNested
import Verif.Lemmas.TemplateMemoryParse
import Verif.Lemmas.TemplateMemoryRender
import Verif.Lemmas.TemplateMemoryRun
import Verif.Lemmas.TemplateOps
import Verif.Lemmas.TemplatePlain
import Verif.Lemmas.TemplateRound
import Verif.Lemmas.TemplateScan
import Verif.Lemmas.TemplateTree
import Verif.Lemmas.Trie
import Verif.Lemmas.Utf8
import Verif.Lemmas.Watching
import Verif.Machine
import Verif.Model.BlogcMemory
import Verif.Model.BuildProgram
import Verif.Model.Config
import Verif.Model.ConfigMemory
import Verif.Model.Content
import Verif.Model.DateTime
import Verif.Model.Debug
import Verif.Model.Deploy
import Verif.Model.Error
import Verif.Model.ErrorText
import Verif.Model.File
import Verif.Model.FileName
import Verif.Model.GitHooks
import Verif.Model.GitMemory
import Verif.Model.GitShell
import Verif.Model.Heap
import Verif.Model.Httpd
import Verif.Model.HttpdMemory
import Verif.Model.HttpdRun
import Verif.Model.Inline
import Verif.Model.Loader
import Verif.Model.Main
import Verif.Model.MakeAtom
import Verif.Model.MakeBinary
import Verif.Model.MakeBuild
import Verif.Model.MakeClean
import Verif.Model.MakeCommand
import Verif.Model.MakeExec
import Verif.Model.MakeFileName
import Verif.Model.MakeFull
import Verif.Model.MakeMain
import Verif.Model.MakeMemory
import Verif.Model.MakeNative
import Verif.Model.MakePipe
import Verif.Model.MakeRules
import Verif.Model.MakeSettings
import Verif.Model.MakeSite
import Verif.Model.MakeWatch
import Verif.Model.MakeWatchBuild
import Verif.Model.Numbers
import Verif.Model.ParserErrors
import Verif.Model.PreReceive
import Verif.Model.Program
import Verif.Model.Reloader
import Verif.Model.Remove
import Verif.Model.RemoveMemory
import Verif.Model.Render
import Verif.Model.ServerMain
import Verif.Model.Sort
import Verif.Model.Source
import Verif.Model.Strings
import Verif.Model.SysInfo
import Verif.Model.SysVars
import Verif.Model.Template
import Verif.Model.TemplateMemory
import Verif.Model.Threads
import Verif.Model.Toctree
import Verif.Model.Trie
import Verif.Model.Utf8
import Verif.Prog
import Verif.Props.C01
import Verif.Props.C02
import Verif.Props.C03
import Verif.Props.C04
import Verif.Props.C05
import Verif.Props.C06
import Verif.Props.C07
import Verif.Props.C08
import Verif.Props.C09
import Verif.Props.C10
import Verif.Props.C100
import Verif.Props.C101
import Verif.Props.C102
import Verif.Props.C103
import Verif.Props.C104
import Verif.Props.C105
import Verif.Props.C106
import Verif.Props.C107
import Verif.Props.C108
import Verif.Props.C109
import Verif.Props.C11
import Verif.Props.C110
import Verif.Props.C111
import Verif.Props.C112
import Verif.Props.C113
import Verif.Props.C114
import Verif.Props.C115
import Verif.Props.C116
import Verif.Props.C117
import Verif.Props.C118
import Verif.Props.C119
import Verif.Props.C12
import Verif.Props.C120
import Verif.Props.C121
import Verif.Props.C122
import Verif.Props.C123
import Verif.Props.C13
import Verif.Props.C14
import Verif.Props.C15
import Verif.Props.C15b
import Verif.Props.C16
import Verif.Props.C17
import Verif.Props.C18
import Verif.Props.C19
import Verif.Props.C20
import Verif.Props.C21
import Verif.Props.C22
import Verif.Props.C23
import Verif.Props.C24
import Verif.Props.C25
import Verif.Props.C26
import Verif.Props.C27
import Verif.Props.C28
import Verif.Props.C29
import Verif.Props.C30
import Verif.Props.C31
import Verif.Props.C32
import Verif.Props.C33
import Verif.Props.C34
import Verif.Props.C35
import Verif.Props.C36
import Verif.Props.C37
import Verif.Props.C38
import Verif.Props.C39
import Verif.Props.C40
import Verif.Props.C40b
import Verif.Props.C41
import Verif.Props.C42
import Verif.Props.C43
import Verif.Props.C44
import Verif.Props.C45
import Verif.Props.C46
import Verif.Props.C47
import Verif.Props.C48
import Verif.Props.C49
import Verif.Props.C50
import Verif.Props.C51
import Verif.Props.C52
import Verif.Props.C53
import Verif.Props.C54
import Verif.Props.C55
import Verif.Props.C56
import Verif.Props.C57
import Verif.Props.C58
import Verif.Props.C59
import Verif.Props.C60
import Verif.Props.C61
import Verif.Props.C62
import Verif.Props.C63
import Verif.Props.C64
import Verif.Props.C65
import Verif.Props.C66
import Verif.Props.C67
import Verif.Props.C68
import Verif.Props.C69
import Verif.Props.C70
import Verif.Props.C71
import Verif.Props.C72
import Verif.Props.C73
import Verif.Props.C74
import Verif.Props.C74b
import Verif.Props.C75
import Verif.Props.C76
import Verif.Props.C77
import Verif.Props.C78
import Verif.Props.C79
import Verif.Props.C80
import Verif.Props.C80b
import Verif.Props.C81
import Verif.Props.C82
import Verif.Props.C83
import Verif.Props.C84
import Verif.Props.C85
import Verif.Props.C86
import Verif.Props.C87
import Verif.Props.C88
import Verif.Props.C89
import Verif.Props.C90
import Verif.Props.C91
import Verif.Props.C92
import Verif.Props.C93
import Verif.Props.C94
import Verif.Props.C95
import Verif.Props.C96
import Verif.Props.C97
import Verif.Props.C98
import Verif.Props.C99
import Verif.Run
import Verif.Spec.Account
import Verif.Spec.Blocks
import Verif.Spec.CommandLine
import Verif.Spec.CommandValues
import Verif.Spec.Config
import Verif.Spec.ConfigAccount
import Verif.Spec.ConfigLayout
import Verif.Spec.ConfigMistakes
import Verif.Spec.DateTime
import Verif.Spec.DebugListing
import Verif.Spec.Disk
import Verif.Spec.Entries
import Verif.Spec.Feed
import Verif.Spec.FileList
import Verif.Spec.GitAccount
import Verif.Spec.GitShell
import Verif.Spec.Html
import Verif.Spec.Http
import Verif.Spec.Incremental
import Verif.Spec.Inline
import Verif.Spec.Items
import Verif.Spec.Leaky
import Verif.Spec.Ledger
import Verif.Spec.Lines
import Verif.Spec.Lists
import Verif.Spec.MakeAccount
import Verif.Spec.MakeArgs
import Verif.Spec.MakeCopy
import Verif.Spec.MakeJobs
import Verif.Spec.MakeRun
import Verif.Spec.MakeSettings
import Verif.Spec.Map
import Verif.Spec.Markup
import Verif.Spec.Memory
import Verif.Spec.Mime
import Verif.Spec.Mistakes
import Verif.Spec.NoLeak
import Verif.Spec.Numeral
import Verif.Spec.Order
import Verif.Spec.Orderly
import Verif.Spec.Page
import Verif.Spec.Path
import Verif.Spec.PreReceive
import Verif.Spec.Programs
import Verif.Spec.Quiet
import Verif.Spec.Reader
import Verif.Spec.Reads
import Verif.Spec.RemoveAccount
import Verif.Spec.Request
import Verif.Spec.Semantics
import Verif.Spec.ServerArgs
import Verif.Spec.Shell
import Verif.Spec.SiteFeed
import Verif.Spec.SitePages
import Verif.Spec.Source
import Verif.Spec.StaticFiles
import Verif.Spec.Strings
import Verif.Spec.SysVars
import Verif.Spec.Template
import Verif.Spec.TemplateAccount
import Verif.Spec.Text
import Verif.Spec.TextLines
import Verif.Spec.Toctree
import Verif.Spec.Tokens
import Verif.Spec.Url
import Verif.Spec.Utf8
import Verif.Spec.Watching
import Verif.Spec.WebDisk
