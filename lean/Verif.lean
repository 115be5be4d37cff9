import Verif.Cache
import Verif.CacheLemmas
import Verif.ClassBody
import Verif.ClassCode
import Verif.CmdLine
import Verif.Compile
import Verif.CompileAst
import Verif.CompileCache
import Verif.CompileSched
import Verif.Config
import Verif.Dict
import Verif.DocText
import Verif.Driver
import Verif.ErrorCatcher
import Verif.ErrorReport
import Verif.FileTools
import Verif.Filters
import Verif.GenVar
import Verif.Hooks
import Verif.ImportHooks
import Verif.ImportLock
import Verif.Indenter
import Verif.Interval
import Verif.LoadPath
import Verif.MakeDirs
import Verif.ModuleName
import Verif.ModuleText
import Verif.Mondo
import Verif.NameMapper
import Verif.Null
import Verif.ParserExpr
import Verif.ParserHigh
import Verif.ParserTok
import Verif.Plumbing
import Verif.Preprocess
import Verif.Props.ArgList
import Verif.Props.Cache
import Verif.Props.CacheCode
import Verif.Props.CacheStore
import Verif.Props.ClassCode
import Verif.Props.ClassSource
import Verif.Props.CmdLine
import Verif.Props.Codegen
import Verif.Props.CompileCache
import Verif.Props.CompileSched
import Verif.Props.Config
import Verif.Props.Directives
import Verif.Props.DocText
import Verif.Props.Driver
import Verif.Props.EndToEnd
import Verif.Props.ErrorCatcher
import Verif.Props.ErrorReport
import Verif.Props.Exec
import Verif.Props.ExecSpec
import Verif.Props.ExprLang
import Verif.Props.Extends
import Verif.Props.FileTools
import Verif.Props.Filters
import Verif.Props.GenVar
import Verif.Props.Header
import Verif.Props.Hooks
import Verif.Props.ImportHooks
import Verif.Props.ImportLock
import Verif.Props.Indenter
import Verif.Props.Interval
import Verif.Props.LoadPath
import Verif.Props.MakeDirs
import Verif.Props.Methods
import Verif.Props.ModuleName
import Verif.Props.ModuleText
import Verif.Props.Mondo
import Verif.Props.NameMapper
import Verif.Props.Null
import Verif.Props.ParserBlocks
import Verif.Props.ParserExpr
import Verif.Props.ParserHigh
import Verif.Props.ParserNest
import Verif.Props.ParserSteps
import Verif.Props.ParserText
import Verif.Props.ParserTok
import Verif.Props.Plumbing
import Verif.Props.Preprocess
import Verif.Props.Psp
import Verif.Props.RegexEsc
import Verif.Props.Restrict
import Verif.Props.ServerPath
import Verif.Props.SetDirective
import Verif.Props.Settings
import Verif.Props.SettingsHeap
import Verif.Props.Setup
import Verif.Props.SourceDefs
import Verif.Props.SourceLines
import Verif.Props.SourceParse
import Verif.Props.SourcePlace
import Verif.Props.SourceReach
import Verif.Props.SourceReader
import Verif.Props.SourceText
import Verif.Props.SourceTop
import Verif.Props.SourceTree
import Verif.Props.SourceWrap
import Verif.Props.StrConst
import Verif.Props.Template
import Verif.Props.TemplateArgs
import Verif.Props.Transaction
import Verif.Props.Turbo
import Verif.Props.Version
import Verif.Props.WebInput
import Verif.Props.Wrapper
import Verif.PyExec
import Verif.PyInt
import Verif.PyLit
import Verif.PyStr
import Verif.RegexEsc
import Verif.Restrict
import Verif.ServerPath
import Verif.SetDirective
import Verif.Settings
import Verif.SourceReader
import Verif.Str
import Verif.StrConst
import Verif.Template
import Verif.TemplateArgs
import Verif.Transaction
import Verif.Turbo
import Verif.Version
import Verif.WebInput
import Verif.Wrapper
