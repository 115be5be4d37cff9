# Formal model of Cheetah3 in Lean 4 — design

The model is in `lean/Verif/`.  It is a hand transcription of the Python (and a little C) in
`/repo` at the pinned commit.  Nothing in `/repo` is executed; the tie between code and model is
the citation on every definition.  The properties are in `properties.jsonl`, the theorems that
prove them in `MANIFEST.json`.

## Conventions

* `Str` is `List Char`: a Python 3 `str` as its list of code points.  Lean's `Char` excludes the
  surrogate code points, Python's does not.
* Python exceptions are values (`Except Err α`, or a result type with an error constructor).  A
  branch that raises is modelled as raising, never totalised.
* A mutating method becomes a function from old state to new state and result.
* Threads and processes are step relations in which any of them may take the next step.
* Recursion that Python leaves unbounded takes a number (`fuel`).  Wherever such a number is
  used there is a theorem that the number supplied is never used up (`C39_parse_terminates`,
  `C39_expression_terminates`), or running out is a value of its own and appears in a theorem
  (`C64_hangs_counterexample`).
* Model files are `Verif/*.lean`; property theorems are in `Verif/Props/*.lean`, with the
  helper lemmas.  Small specifications that a reader needs to understand a theorem are in the same
  file, ahead of it, and do not use the model's functions.
* Theorems are named `Cnn_…` after the property they prove.  A suffix `_partial` marks a theorem
  that proves less than the English property; its comment says what is missing.  Where the code
  violates the property, a `Cnn_…_counterexample` theorem proves the violation on a concrete
  witness.  Examples beside the theorems show that their hypotheses can be met.

## Trusted base

* Lean 4.33.0's kernel, and the elaborator in so far as it presents the statements faithfully.
* Axioms: at most `propext`, `Classical.choice`, `Quot.sound`, listed per theorem at the end.
  None is declared here, no proof has a gap, and nothing rests on compiled evaluation.
* The reading of the Python source: that each definition says what the lines cited do.
* Python built-ins transcribed by hand (`Str`, `PyStr`, `PyInt`, `PyLit`, `Dict`): `str.split`,
  `join`, `replace`, `strip`, `find`, `splitlines`, `expandtabs`, `translate`, `repr`, `int`, `float` (exact
  decimals), the lexer of string literals, ordered `dict`, sorting, slices and negative subscripts.
* The meaning of the Python that the compiler generates (`PyExec`): a small interpreter of
  statements with indentation, exceptions, `try/finally`, loops, and the calls the generated code makes.
* The regular expressions of `/repo` are transcribed as functions; for `escapeRegexChars` the
  part of CPython's pattern syntax that decides which characters are literal.
* Operating system and runtime: `open(.., 'w')` truncates and writes reach the file in pieces (C50);
  `fork`/`wait` (C51); a single dictionary operation is atomic under the GIL (C48, C53); MD5 and
  `hash` are arbitrary functions (C16, C49).
* Python's own tokenizer is a parameter of the parser model, with stated sanity conditions (a token
  is not empty, an identifier or a single bracket is a token), which an example tokenizer is shown to meet.


## Properties

| id | property | modelled | proof | status |
|----|----|----|----|----|
| C01 | Search-list shadowing is decided by the first component alone | `NameMapper.py` over an abstract object graph with a call trace | induction on the search list | proved |
| C02 | Dotted lookup is compositional | same | induction on the search list | proved |
| C03 | NotFound is raised exactly when a component is missing | same | induction on the search list and the chunks | proved |
| C04 | Mapping keys shadow attributes at every step | same | case analysis, call trace | proved |
| C05 | Placeholder precedence: locals, search list, globals, builtins | same | induction on the chunks | proved |
| C06 | Autocalling calls exactly the callables on the path, once each, in order | same | case analysis | proved |
| C07 | The C accelerator and the pure Python lookup agree | `_namemapper.c`: chunker and lookup loops, beside the Python version | case analysis on the chunker, induction on chunks; counterexamples | partial |
| C08 | A NotFound message is annotated with the full searched name at most once | `_wrapNotFoundException` of both implementations | induction on the layers; counterexample for C | partial |
| C09 | getVar, varExists and defaults agree | `Template.getVar/varExists` | from C01–C03 | proved |
| C10 | Composition of the template search list | `_initCheetahInstance`, `_handleCheetahInclude`, search list | from C01–C03 | proved |
| C11 | The source cursor never leaves the readable window | `SourceReader.py` as a state machine | invariant over operation lists; counterexamples | partial |
| C12 | Reading conserves the source | same | induction on reads | partial |
| C13 | Reported row and column identify the position | `getRowCol`, line tables | induction on the line table | proved |
| C14 | The in-memory cache store is a map with expiry | `CacheStore.py` `MemoryCacheStore` | refinement to an abstract map with expiry, over all histories | partial |
| C15 | A cached region shows exactly the body rendered at the last refresh | `CacheRegion.py`, the code generated for cache regions | state machine with ghost history; the lines that the compiler model emits for `#cache` are executed as Python lines and shown to take the steps of that state machine (`C15_generated_code`) | proved |
| C16 | Cache keys of different regions and items never collide | `CacheItem`/`CacheRegion` key construction | case analysis, injectivity | proved |
| C17 | refreshCache forces re-rendering | `refreshCache` | state machine | partial |
| C18 | WebSafe output is safe and lossless | `Filters.py` WebSafe | induction on strings | proved |
| C19 | Filter basics: None is empty, strings pass through, MaxLen truncates | `Filters.py` Filter, MaxLen | case analysis | proved |
| C20 | Strip and StripSqueeze normalise whitespace only | `Filters.py` Strip, StripSqueeze | induction on lines and words | proved |
| C21 | htmlDecode inverts htmlEncode | `Utils/htmlEncode.py` | induction on strings | proved |
| C22 | Merging nested settings is right-biased and local | `mergeNestedDictionaries` as a function on values; `SettingsManager` reads and updates | induction on nesting | partial |
| C23 | Merging does not disturb its inputs | the same on a heap of dictionaries, with `copy`, `deepcopy` | heap invariants; counterexamples | partial |
| C24 | Template text survives code generation byte for byte | `repr`, `commitStrConst`, the lexer of triple-quoted literals | round trip by induction on the string | proved |
| C25 | Adjacent text and placeholders keep their order | `MethodCompiler`: pending text, chunks, `commitStrConst` | induction on the command list, execution of the generated code | proved |
| C26 | Generated code is correctly indented for every nesting | indentation of generated lines, Python block structure | induction on the template tree | partial |
| C27 | Control-flow directives mean what they say | `#if`, `#for`, … into Python statements, interpreter | compiler correctness by induction on the tree | proved |
| C28 | Output redirection is undone after #capture, #call, #cache and #filter | generated code of the regions: saved transaction, `write` and filter | simulation by induction; counterexamples | partial |
| C29 | #stop ends output at that point | `#stop`, `#return` | simulation; counterexamples | partial |
| C30 | Placeholders generate left-to-right lookups | `genNameMapperVar`, `genPlainVar`, chunk splitting | induction on the chunk list; reading back the generated expression | proved |
| C31 | #set assigns the named target only | `eatSet` style words, `addSet` | case analysis on the first boundary; counterexamples | partial |
| C32 | Cache interval strings | `genTimeInterval`, `genCacheInfo…`, `cacheTokenRE` | case analysis over exact decimals | partial |
| C33 | Error catchers: one wrapper per placeholder source | `addErrorCatcherCall`, `ErrorCatchers.py` | invariant over placeholder lists; counterexamples | partial |
| C34 | Text outside tags passes through the parser unchanged | `ParserTok`: `eatPlainText`, `matchTopLevelToken` and all start-token matchers | a separate specification of where tags start; induction on the text | proved |
| C35 | Only properly nested directives are accepted | `ParserHigh`: all directives, open-directives stack, parse loop | (1) invariant of the mutually recursive loop for all sources; (2) evaluation of the parser on block sequences, induction on the sequence; counterexamples | partial |
| C36 | Directive names are matched as whole words | `matchDirectiveName` | induction on the characters read | proved |
| C37 | Brackets in expressions are matched | `getExpressionParts`, `getCallArgString`, `getCheetahVar`… | mutual induction on fuel, with a separate grammar of matched brackets | proved |
| C38 | Nested multi-line comments | `eatMultiLineComment` | induction on a comment grammar; counterexamples | partial |
| C39 | Parsing terminates and always makes progress | the whole parser | measure: three steps per character; mutual induction | partial |
| C40 | Escapes: \$ and \# produce the literal character | `eatPlainText` unescaping | induction on the string; counterexamples | partial |
| C41 | Default-argument lists survive parsing | `getDefArgList`, `ArgList`, `methodSignature` argument string | induction on the printed list; counterexamples | partial |
| C42 | Literal regex escaping | `escapeRegexChars`, literal part of `re` syntax | induction on the string | proved |
| C43 | Output equals the concatenation of what was written | `DummyTransaction.py`, `#transform` | induction on histories; counterexamples | partial |
| C44 | Indentation level never goes negative and push/pop restore it | `Indenter.py` objects with the class-level stack | invariant over histories of all objects; counterexample | partial |
| C45 | Version ordering | `Version.py` | case analysis | proved |
| C46 | Template paths become identifiers | `convertTmplPathToModuleName.py` | table lookup for all characters below 256 | proved |
| C47 | Web input lookup | `WebInputMixin.py`, `Template.webInput` | case analysis, induction on names; counterexamples | partial |
| C48 | Concurrent compilations never share a module | `Template.compile` 765–869: lock, `sys.modules`, cache; interleaved threads | invariant over all schedules, progress; counterexample (nested compile deadlocks) | partial |
| C49 | Compile-cache keys identify the request | `hashDict`, `hashList`, cache key | case analysis; counterexamples | partial |
| C50 | A crash during 'cheetah compile' does not lose the previous output | `_compileOrFillBundle` as file operations, crash after any of them | case analysis over prefixes of the operations | proved |
| C51 | Parallel compilation: bounded children, complete collection, failure reported | fork/wait pool of `_compileOrFill` | invariant over all termination orders; counterexample | partial |
| C52 | Destination collisions are detected in flat mode | `_getBundles`, `_checkForCollisions` | induction on bundles | proved |
| C53 | The import lock is exclusive and re-entrant | `ImportManager._acquire/_release`, interleaved threads | invariant over restricted schedules; counterexamples | partial |
| C54 | Splitting module names | `nameSplit`, `packageName`, `getPathExt` | induction on the loop | proved |
| C55 | Roman numerals | `MondoReport.Roman` | denotation of numerals; arithmetic over all n | proved |
| C56 | Paging a report | `MondoReport.page/all` | induction on the loop | proved |
| C57 | Preprocessor tokens only fill in what the caller left open | `_normalizePreprocessorSettings`, `_updateSettingsWithPreprocessTokens` | case analysis | proved |
| C58 | #include renders through the includer's initial filter and is compiled once | `_handleCheetahInclude` | invariant over include histories; counterexample | partial |
| C59 | Recursive file search visits each matching file once | `FileUtils.FileFinder` | induction on the tree; counterexample | partial |
| C60 | Source statistics add up | `SourceFileStats` | induction on lines and files | proved |
| C61 | The #indent preprocessor works line by line | `IndentProcessor` | induction on lines; counterexamples | partial |
| C62 | Record statistics | `RecordStats`, `median` | case analysis; counterexamples | partial |
| C63 | Source statistics classify lines | `SourceFileStats.getFileStats` | case analysis; counterexample | partial |
| C64 | Without --flat distinct sources have distinct destinations | `_getBundles` without `--flat`, with the loop over the parents of `--odir` | case analysis; induction over the components of the output directory; counterexamples | partial |
| C65 | Main class names | `Template.compile` 682 | case analysis | proved |
| C66 | Module text does not depend on the cache | `Template.compile` 765–792, encodings | case analysis; counterexample | partial |
| C67 | A placeholder ends where it is closed | `getPlaceholder` | from C37; counterexample | partial |
| C68 | Expressions reach Python as written | `getExpressionParts`, `getCallArgString`, `getCheetahVarNameChunks` and `genNameMapperVar` on an expression given as a tree | induction on the size of the tree, for parts, call arguments and bracket groups together | partial |
| C69 | An accepted template compiles | `Driver`: `MethodCompiler`, `AutoMethodCompiler`, `ClassCompiler` driven by the parser's commands | induction on nesting; frame of a method restored by each block; counterexamples | partial |
| C70 | A template does what it says | parser model and `Driver` composed: source text to the lines of `respond`; the lines are read back by a small reader of indented Python | induction on the source tree for the parser (`parse_doc`) and for the compiler (`doc_runs`), then the execution theorem of C28; `readLines` recognises the lines the compiler writes around the body of a `#capture`, `#call` or `#filter` | partial |
| C71 | #def and #block become methods | as C70, with the stack of method compilers of `Driver` | `Makes`: the commands of a source change the innermost method and append one finished method per definition; by the same induction as C70; the methods do not depend on the reading of expressions, because the steps are deterministic | partial |
| C72 | #extends derives from the class it names | `Driver`: `addImportStatement`, `addImportedVarNames`, `setBaseClass`, with the list of names noted as imported | only three commands touch the imports (case analysis over all commands), then induction over the directives and over the list of classes | partial |
| C73 | Error reports show the place of the error | `ErrorReport`: `ParseError`, its `report`, and the report made of a Python syntax error | the line table of the reader and `splitlines` agree with one inductive notion of lines; loops unrolled by induction into ranges of rows | partial |
| C74 | Completing a compiled class hides nothing, and str() runs the template | `Plumbing`: `_addCheetahPlumbingCodeToClass`, attribute lookup along the resolution order, what `str()` calls | induction over the sequence of templates; each step adds only names not found before | partial |
| C75 | Attributes of a Template subclass are available in a template made from source | `Plumbing`: the part of `_compile` that moves class attributes to the instance | the loop characterised by induction over the class dictionary; counterexamples for what it drops | partial |
| C76 | Comments and documentation never become code | `DocText`: `addComment`, the docstrings, header and special variables as text | invariant over the sequence of comments; a literal ends at the first three quotes, found by induction; `repr` read back by a model of short literals | partial |
| C77 | Settings in configuration text mean what they say | `Config`: the number test with ordered backtracking matching, conversion of values, the loop over sections, updating settings | induction on regular expressions (characters taken, characters needed, first character); induction on the list of sections; refinement to `Settings` | partial |
| C78 | A template is imported by its name | `ImportHooks`: finders, `doimport` and `importHook` over files, `sys.modules` and arbitrary running of modules | refinement to a specification of where a name leads; induction on the search path and the parts of the name; a relation on files carried through whole imports | partial |
| C79 | A forbidden directive has no effect | `Restrict` on top of `ParserHigh`: the two settings | an invariant of the parse loop (every command comes from a permitted directive) and a relation between the restricted and the free parser, both by induction on the steps | partial |
| C80 | Expression filter hooks see the code of a template | `Hooks` on top of `ParserHigh`: what each part of the parser shows to the hooks before it goes on | one lemma per directive (its commands carry only what was shown), an invariant of the parse loop, and a relation between the parser with and without hooks | partial |
| C81 | The names of a compiled class | `ClassBody` on top of `Driver`: attributes, `__init__`, signatures and the class statement as lines | a small reader of class statements as specification; the written lines are shown to be statements that bind known names (composed line by line), the last binding found by induction; the end-to-end theorem of the parser and the compiler gives the methods | partial |
| C82 | Methods, decorators and generators | `Driver`: `spawn`, `swallow`, `addReturn`, `addYield`, `sealed`, and every other command | a separate machine that only looks at the directives (a stack of outlines); the compiler follows it, by case analysis over all commands and induction; for `#yield` a reader of the generated lines | partial |
| C83 | Parameters and set-up of the methods | `Driver`: `sealed`, `setupLines`, `finish`; `ClassBody`: `signature` | the choice is stated outright over a list of parameters as data; the scans over their texts are shown to find what the data says, by induction | partial |
| C84 | Python sections | `ParserTok`: `eatPsp`; `Driver`: `psp`, `splitLines`, `commit` | templates as a tree with its source and its lines; the parser and the compiler are followed through it by induction | partial |
| C85 | The names of a compiled module | `ModuleText`: `headerLines`, `moduleLines`, `specialLines`; `Driver`: `step` | the lines of the module read by a small specification of what they bind at top level; induction over the commands for the constants and the first line | partial |
| C86 | A compiled template as a script | `CmdLine`: `getopt`, `act`, `run` | the ways of writing an option as a relation; induction over the command line in both directions; C01 for the lookup | proved |
| C87 | The object that stands for nothing | `Null`: `withNull`, `truthOf`, `eqNull`; `NameMapper` | any world of objects with one more object; induction over the chain and over the parts of each name | partial |
| C88 | Directories of compiled templates become packages | `MakeDirs`: `step`, `steps`, `turns` | a step machine over file systems; induction over the path for whole runs, an invariant of all reachable points for stopped ones | partial |
| C89 | A template shows the code of its class | `ClassCode`: `moduleDef`, `find`, `generatedClassCode` | induction over the text in front of the first match; lines of a text against places of a line break | partial |
| C90 | Arguments of Template() | `TemplateArgs`: `check`, `looped`, `lists`, `makeFilter`, `makeCatcher`, `init` | the steps of the constructor one after the other, each by cases on its argument | partial |
| C91 | Paths of sources and included files | `ServerPath`: `normpath`, `abspath`, `serverSidePath` | induction over the parts of the path, against a walk from directory to directory | partial |
| C92 | Templates loaded for TurboGears are current | `Turbo`: `recompile`, `import_`, `loadModule`, `load` | an invariant over all histories of edits and loads; a second invariant, of being lost, for the violation | partial |
| C93 | Templates are loaded from the directory of their path | `LoadPath`: `keep`, `clean`, `searched`, `moduleName`, `suffix`, `load` | the names in a path before and after the clean-up, by induction on the path; cases for the modules | partial |

## What is modelled

| module | code |
|--------|------|
| `NameMapper` | `Cheetah/NameMapper.py`, `Cheetah/c/_namemapper.c` (lookup, chunking, wrapping) |
| `Template` | `Template.py`: getVar, varExists, search lists, include handling |
| `SourceReader` | `SourceReader.py` |
| `Cache`, `CacheLemmas` | `CacheStore.py`, `CacheRegion.py`, cache methods of `Template.py`, generated cache code |
| `Filters` | `Filters.py`, `Utils/htmlEncode.py`, `htmlDecode.py` |
| `Settings` | `SettingsManager.py`: merging, reads, updates |
| `StrConst`, `PyLit`, `Compile`, `CompileAst`, `PyExec` | `Compiler.py` `MethodCompiler`: text chunks, indentation, control flow, regions; the Python they are executed by |
| `GenVar` | `Compiler.py` 187–321, `Parser.py` 911–968 |
| `SetDirective`, `Interval`, `ErrorCatcher` | `Compiler.py` 146–185, 572–600, 1466–1504; `ErrorCatchers.py` |
| `ParserTok`, `ParserExpr`, `ParserHigh` | `Parser.py` 359–391, 423–648, 650–968, 970–1391, 1395–2786 |
| `Driver` | `Compiler.py` 316–1600, 1789–2030: what each parser command does to the method, class and module being compiled, as text |
| `RegexEsc` | `Parser.py` 37–42 |
| `ErrorReport` | `Parser.py` 267–331, `Template.py` 1982–2057, `SourceReader.py` 57–86 (only ASCII digits in the position comments; reports of a reader with its break point at the end) |
| `Transaction` | `DummyTransaction.py`, `#transform` |
| `Indenter` | `Utils/Indenter.py` |
| `Version`, `ModuleName` | `Version.py`, `convertTmplPathToModuleName.py`, name helpers of `ImportManager.py` |
| `WebInput` | `Utils/WebInputMixin.py`, `Template.webInput` |
| `CompileSched`, `CompileCache` | `Template.compile` |
| `Plumbing` | `Template.py` 280–307, 1013–1098, 1642–1655 (Python 3; `klass` is `Template`; single resolution order) |
| `DocText` | `Compiler.py` 348, 417–430, 532–534, 1278, 1432–1433, 1578–1586, 1751–1753, 1958–1978, 2001–2030, 2129–2155; `Parser.py` 159 (one method; the notes on definitions) |
| `Config` | `SettingsManager.py` 17–70, 122–205, 282–303; `Compiler.py` 1740–1741; `tokenize.Number` (values of settings in text; what `ConfigParser` makes of the text is the input) |
| `ImportHooks` | `ImportHooks.py` 36–112; `ImportManager.py` 137–143, 176–266, 377–407, 446–575 (Python 3; extension, built-in and frozen modules as leaves; no `*` in `from` imports) |
| `Restrict` | `Parser.py` 1525–1533 |
| `Hooks` | `Parser.py` 1485–1523 and the calls of `_applyExpressionFilters` |
| `ClassBody` | `Compiler.py` 1188–1219, 1279–1330, 1530–1600 (docstrings in `DocText`) |
| `ModuleText` | `Compiler.py` 1744–1802, 2061–2178 (without blank lines) |
| `CmdLine` | `TemplateCmdLineIface.py` 18–79 (with `getopt` of the Python library) |
| `Null` | `Tools/RecursiveNull.py` |
| `MakeDirs` | `Utils/Misc.py` 53–66 |
| `ClassCode` | `Template.py` 1343–1358; the frame of `wrapModuleDef` (`Compiler.py` 2079–2122, 2164–2178) |
| `TemplateArgs` | `Template.py` 1231–1276, 1300–1337, 1550–1556, 1571–1577, 1583–1606 |
| `ServerPath` | `Servlet.py` 36–46 (`serverSidePath`), with POSIX `normpath` and `abspath` |
| `Turbo` | `Tools/turbocheetah/cheetahsupport.py` 11–24, 38–100 |
| `LoadPath` | `LoadTemplate.py` 7–41, `ImportManager.py` 179–180 |
| `Preprocess` | `Template.py` 888–1010 |
| `Wrapper` | `CheetahWrapper.py` 342–520, 602–660 |
| `ImportLock` | `ImportManager.py` 578–591 |
| `Mondo`, `FileTools` | `Tools/MondoReport.py`, `FileUtils.py` |

Not modelled: macros (`#defmacro`), `#compiler` and the effect of changed settings on the rest of a parse, `c'…'` strings, i18n, gettext
tokens, expression filters that change the expression, and parse hooks (`Parser.py`);
command-line option parsing; the rest of `Servlet.py`,
`Unspecified`, `Tools/SiteHierarchy`, `Tools/CGITemplate`,
`Utils/memcache.py` stores, `FileUtils` text replacement (broken on Python 3), floats in
`MondoReport`; Python 2 branches.

## What the model shows to be wrong in the code

Each item is a `…_counterexample` theorem, or follows directly from a definition that cites the lines.

* **`#elif` (C70).** `else if` is replaced by `elif` in the whole expression, string literals included:
  `#elif $b == 'else if'` compares with `elif`.
* **`#set` operators (C70).** The list of assignment operators (Parser.py 89-92) lacks Python's `//=`: `#set $x //= 2` is refused.
* **`#stop` in a `#capture` (C70).** The method ends and returns what has been captured instead of what has been written before.
* **Placeholders next to text (C70).** `${x + 1}(see below)` compiles to `x + 1}(see below)`, which is no Python; `$f(1)abc` is read as
  `$f(1).abc`.  `$m[0][1]` is two subscripts, and so is `$f(1)[0]` in an expression, but in text the `[0]` behind `$f(1)` is written as text.  A block that contains only a comment compiles to a block without a statement, which is no Python.
* **Definitions (C71).** `#def respond` is shadowed by the main method.  `#def f($trans)` gets the argument `trans` twice, which is no
  Python (1112–1114).  The call that a `#block f($x)` leaves passes no arguments.  A `#def` inside a `#def` is a function without
  `write` and `_filter` of its own, and not a method.
* **Parser, nesting (C35).** A block directive or `#end` after a colon on one line is matched against blocks opened
  outside (`#if x: #call f` is accepted misnested).  `#silent if …`, `#echo for …` push the first word of their
  *expression* (Parser.py 1780–1783).  `#end forever` ends a `#for`: names are matched by prefix (1831–1834).
* **Parser, single-line definitions.** `#def f(a,\n b): body` stops at the end of the *first* line, so the method is
  empty and the body goes elsewhere.  `#block` on one line inside `#def` raises UnboundLocalError (2166–2170).
  Single-line closures and nested definitions dedent before their text is committed (2103–2104).  Doubly nested `#def`s leave
  `useSearchList` off: `_useSearchList_orig` is overwritten.  `includeBlockMarkers` on a single-line block puts the START
  marker after the body.
* **Parser, expressions.** After the bracket of `${expr}` a directly following bracket group is swallowed (C67).  `$a[1]b` reads `b`
  as an attribute (940–966).  A comment inside brackets swallows the rest (1215–1217).  `$( )` is accepted.
* **Parser, crashes.** IndexError instead of ParseError at the end of the source: `#else`, `#if x`, `#silent`, `${x`,
  `#def f(*`; SourceReader.Error for `#slurp` inside single-line forms and for nested comment starts at the end; `#silent` with an
  empty expression; TypeError in `transformToken`.
* **Parser, termination (C39).** `#breakpoint` consumes nothing (the parse ends there).  Disabling `@`, or a custom
  directive with the value None, makes `parse` loop for ever.
* **Compiler crashes (C69).** `#arg` outside `#call`, `<%%>`, `#import` alone: IndexError.  Two stray `<%end%>` are accepted and
  move the rest of the code to the class level; the third is an internal error.  `#cache timer='abc'`: ValueError.
* **`#arg` (C70).** The blanks in front of an `#arg` on a line of its own become text of the argument before it, and the text before the
  first `#arg` becomes text of the first argument.
* **Argument lists (C41).** A missing comma, `==`, a lambda or `=` without a name in a default are misread.
* **Comments (C38).** One character after every nested token is skipped; an unclosed comment or `#raw` is accepted.
* **Escapes (C40).** The line-joining `#` ignores the escape; `\\$x` counts as escaped.
* **`#set` (C31).** A target whose name starts with `local`, `global` or `module` loses it; `#set global` with a tuple.
* **`#cache`.** Interval 0 is cached for ever (C32); `#cache(…)` leaves the `)` as text; ids are random, and `ID`/`id` differ.
* **Error catchers (C33).** The code is put between `'''` without escaping; `ErrorCatchers.KeyError.warn` raises a
  class that is no exception; decorators attach to the wrapper.
* **Regions (C28, C29).** `#stop`, `#return`, `#break` inside `#capture`, `#call` or `#cache` leave output redirected.
* **Control flow (C26).** A directive with an empty body generates invalid Python.
* **Settings (C22, C23).** Merging is not associative; `copy=True` protects only the top level; aliasing.
* **NameMapper (C07, C08).** The C and Python versions differ for objects whose mapping and attribute protocols disagree; the C
  wrapper loses a message.
* **Expressions (C68).** A generator as call argument keeps a look-up as its target, `f(VFFSL(SL,"x",True) for VFFSL(SL,"x",True) in …)`;
  `$f(g($x=1))` keeps a look-up before the equals sign. Python rejects both.
* **SourceReader (C11, C12).** `ungetc` below 0, `setBreakPoint` past the end, `getc` at the break point.
* **Cache store (C14).** `replace` does not do what it documents.  **Includes (C58).** A raw include followed by a parsed one fails.
* **Compilation (C48, C49, C66).** The compile lock is a plain Lock: a module that compiles while it is executed deadlocks.
  Keys collide (names joined without separator, `[]` against `{}`, -1 against -2, 2^61-1 against 0).  Cached text is encoded as ASCII.
* **#extends (C72).** With `#import pkg`, `#extends pkg.mod.Page` derives from `mod.Page`, which is not bound; `#import a` turns `a.ba.C`
  into `bC`; a class of an imported module is imported from a module of its own name; names imported in brackets are not noticed;
  `#extends Page Part` derives from `PagePart`; `#extends A,,B` is an IndexError. Without `useLegacyImportMode` a late
  `#from m import *` is lost and a late `#extends` leaves its class unbound.
* **Error reports (C73).** The first line of a template is never shown before the line of an error (`row - 1 - i <= 0`). Rows are counted by
  `\n`, `\r`, `\r\n` but lines are taken from `str.splitlines`, so after a form feed or `U+2028` the wrong line is shown. An error at the end
  of a template that ends with `\r\n` cannot be printed: `TypeError`. For Python errors the line after the error is left out and the
  following ones are numbered one too low, the caret is one place too far left (`offset` counts from 1), and the guessed template
  position is that of the preceding line of code if it has one. An error in an empty template is a `SourceReader.Error`.
* **Class completion (C74).** `hasattr(cls, '_initCheetahAttributes')` is never true (the method is called `_initCheetahInstance`), so every class is completed.
  `str(t)` of a derived template runs the main method of the first template, not its own. `__str__ = __unicode__` on Python 3 drops the
  decoding of bytes. The last branch calls the *name* of the main method.
* **Template subclasses (C75).** `class S(Template): debug = False; S(source)` loses `debug` (`if not v`), inherited attributes are lost,
  methods become plain functions on the instance (called without `self`), and they hide what the template defines.
* **Documentation (C76).** Three double quotes in `##doc-module:` or `##doc-class:` end the docstring and what follows is compiled as code;
  in `##doc:` they become `'''`. A `%` in `##doc:` is doubled and stays doubled. Backslashes are not escaped: `C:\\users` makes a module Python refuses.
  `specialVarRE` has `A-z`, so `##a^b@ x` assigns to `__a^b__`. The note on a one-line `#def` whose arguments go over two lines is not a comment.
* **Settings in text (C77).** An empty value raises `IndexError`; `(1+2)` is evaluated and `((1+2)` is a syntax error; `importSettings` calls a method
  that does not exist; an option called `globals` is lost; a reset keeps settings that have no default and drops settings passed from outside.
  (Also, from reading: `ConfigParser` interpolates, so a value with `%`, such as `directiveStartToken = %`, is an error before this code is reached.)
* **Importing templates (C78).** The first import of `t.tmpl` writes `t.py` beside it, and from then on `t.py` is what is imported: an edited template
  is not compiled again. Byte code is used if it is not older than its source by whole seconds. A module that raises stays in `sys.modules` half made.
  `import t.x` for a module `t` is a `KeyError`; unreadable byte code without source is a `TypeError` (`py[0]` of `None`; the branch `return None` is dead).
  The number of dots of a relative import is ignored. A directory that did not exist at first use is never looked into. A relative import that falls back
  leaves `None` in `sys.modules`. `from a.b import c` gives `a` if `a` has an attribute `b`. `setCacheDir` works once. `reload` puts a different module into `sys.modules`.
* **Forbidden directives (C79).** `_filterDisabledDirectives` compares the lower-case name with the lists as given: `disabledDirectives = ['errorCatcher']` has no
  effect, `enabledDirectives = ['errorCatcher']` forbids it. With `elif` disabled `#else if` still works, with `import` disabled `#silent 1; import os` does, with `slurp`
  disabled a `#` at the end of a line does. `#compiler-settings` in a template can lift the restrictions unless it is itself disabled (not modelled).
* **Expression filter hooks (C80).** The arguments of `#call f args` are read after the hooks were asked and are never shown to them; filter arguments in `${x, a=..}` are only in
  `rawExpr`; a second `then` in `#if .. then .. else .. then ..` joins two pieces of code that were not shown together; the type for `#silent` and `#echo` is the first word of the
  expression and not the directive. The arguments of `#i18n` and other macros are evaluated at compile time and never shown (not modelled).
* **Names of a class (C81).** A `#def` or `#block` with the name of the main method is lost without a message (the main method is finished last and replaces it); an `#attr` with the
  name of a method hides it.
* **Static methods (C83).** A static or class method with its own `**kw` or a parameter `trans` starts with `SL = [KWS]`, but has no parameter `KWS`: its first placeholder, indeed its first line of set-up, is a `NameError`.
* **Python sections (C84).** The code of a section is stripped as a whole: of lines that are all indented alike, the first loses its indentation and Python refuses the rest. A `%>` inside a string literal ends the section.
* **`bytes(compiler)` (C85).** The module is encoded as `#encoding` says but without a coding line (`_moduleEncodingStr` is always empty, `Compiler.py` 1750), so Python reads it as UTF-8. `Template.compile` inserts the line.
* **Options of a script (C86).** The mappings of `--env`, `--pickle` and `--json` stand in front of the namespace of `#set global`: of a name that an option has, `#set global` has no effect.
* **`RecursiveNull` (C87).** In Python 3 `#if $null` raises `TypeError`: `__bool__` returns 0 instead of `False` (`Tools/RecursiveNull.py` 27). `null == null` raises too, through the same method.
* **Package directories (C88).** A run that stops between `os.mkdir` and the writing of `__init__.py` leaves a directory that no later run makes a package (`Utils/Misc.py` 62-66). With `--parallel`, two workers that need the same new directory race: the slower one raises `FileExistsError` and its template is not written.
* **Class code (C89).** `generatedClassCode` searches the module's text (`Template.py` 1355-1358): template text with a line `## END CLASS DEFINITION` cuts the class short, and a `##doc-module:` line that begins with `class ` puts part of the docstring and all that follows it in front of the class. For a template that was not compiled from a source it raises `AttributeError`, where its docstring promises `None`.
* **Arguments of `Template()` (C90).** The test of `filter` and `errorCatcher` lets every class pass (`Template.py` 1242, 1257). A text for `filtersLib` passes, but `getattr` on the text then finds no filter (1587). A single object that cannot be looped over is accepted as `namespaces` and raises `TypeError` as `searchList` (1303). Names that the template hides are logged only for lists given as `searchList`.
* **Paths with backslashes (C91).** `serverSidePath` turns every backslash of a path into a slash (`Servlet.py` 42), also on systems where a backslash is a character of a name; such files cannot be included or compiled by `Template(file=...)`.
* **Loading for TurboGears (C92).** `load_template_module` notes the time of the file and drops the module before it compiles the template (`Tools/turbocheetah/cheetahsupport.py` 81-88). If the compilation fails, the module is missing: an unchanged file then raises `ImportError`, a changed one `KeyError` from `del sys.modules[...]`, and no repair of the file helps until the process is restarted.
* **Loading by path (C93).** The clean-up of the directory (`LoadTemplate.py` 23-28) turns `/` into the empty string, which `DirOwner` takes for the working directory (`ImportManager.py` 179-180): `loadTemplateModule('/index')` loads `index` from there. The module is put into `sys.modules` under its bare name before its code runs (37-40): a template called `string` replaces the library's module, and stays there if it fails.
* **`#yield` (C82).** What a generator template writes behind its last `#yield` is lost: the method has no return at its end and nothing yields the rest.
* **Import lock (C53).** Two threads can be inside; an import that raises leaves it held.
* **Command line (C50, C51, C64).** An absolute source is put under `--odir` by cutting a common prefix of the texts, not of the paths: `/srv/outer/b` with `--odir /srv/out` is written to `/srv/out/er/b.py` (`C64_absolute_counterexample`). A child killed by a signal counts as successful; a second run after a crash overwrites the
  good backup; without `--flat` two sources can share a destination; `--odir //x` loops for ever.
* **Utilities (C44, C59, C61–C63).** `LevelStack` is shared by all templates; the finder lists a file once per matching
  pattern, and directories; `#indent chars` fails; `Roman(0)` is a TypeError; `firstValue` of the first record
  compares with the last; `next()` raises; `prev()` of a record after the first is a page that begins and ends with that record, at a negative index; blank and comment lines are misclassified.
* **Web input (C47).** Two requests for one bare name keep the last; the CGI form is read once per process.

## Wrong programs

`seeded/LOG.jsonl` has one line per deliberate error put into a copy of the model: the definition, the edit, the claim it
breaks, `failed` (the property theorems that no longer check, because they or a lemma they rest on fails), `first_failures`
(the declarations at which the build stops) and `tightened` (theorems that had to be made stronger because they survived).

## Axioms per theorem

As reported by `#print axioms` (namespace `Cheetah.` left out).

**no axioms** (16 theorems): `Cache.C16_colon_prefix_counterexample`, `Cache.C17_refresh_raises_counterexample`, `Filters.C18_reserved_also_counterexample`, `Filters.C19_default_filter`, `SetDirective.C31_word_prefix_counterexample`, `ErrorCatcher.C33_changed_settings_counterexample`, `Parser.C40_same_token_counterexample`, `Indent.C44_shared_stack_counterexample`, `Wrapper.C50_nobackup_loses`, `Wrapper.C50_second_run_loses`, `Preprocess.C57_pipeline`, `Template.C58_raw_then_parsed_counterexample`, `Doc.C76_one_line_def_counterexample`, `Null.C87_text_and_equality_partial`, `Null.C87_truth_counterexample`, `ClassCode.C89_none_counterexample`

**propext** (100 theorems): `NameMapper.C02_dotted_composition`, `NameMapper.C04_mapping_key_first`, `NameMapper.C04_valueForKey_mapping`, `NameMapper.C07_defaultdict_counterexample`, `NameMapper.C07_raising_property_counterexample`, `NameMapper.C08_c_first_annotation`, `NameMapper.C08_c_wrapper_loses_message_counterexample`, `Template.C09_dollar_irrelevant`, `Template.C10_include_chain`, `Template.C10_init_idempotent`, `Template.C10_search_order`, `Cache.C16_keys_injective`, `Filters.C20_words_at_space`, `Settings.C22_associativity_counterexample`, `Settings.C22_setting`, `Settings.C23_alias_counterexample`, `Settings.C23_copy_counterexample`, `Settings.C23_sharing_counterexample`, `Compile.C28_break_counterexample`, `Compile.C28_break_filter_counterexample`, `Compile.C28_caught_exception_counterexample`, `Compile.C28_same_number_counterexample`, `Compile.C29_stop_in_region_counterexample`, `SetDirective.C31_local_target`, `SetDirective.C31_split_loses_nothing`, `SetDirective.C31_style_partial`, `SetDirective.C31_tuple_counterexample`, `ErrorCatcher.C33_escape_counterexample`, `ErrorCatcher.C33_keyError_counterexample`, `ErrorCatcher.C33_missing_name`, `ErrorCatcher.C33_transparent`, `Parser.C38_nested_counterexample`, `Parser.C38_reader_error_counterexample`, `Parser.C38_unclosed_counterexample`, `Parser.C39_breakpoint_counterexample`, `Parser.C39_error_counterexample`, `Parser.C40_end_of_line_counterexample`, `Parser.C41_colon_counterexample`, `Parser.C41_equals_counterexample`, `Parser.C41_index_error_counterexample`, `Parser.C41_missing_comma_counterexample`, `Transaction.C43_concatenation`, `Transaction.C43_given_chunks`, `Transaction.C43_method_output`, `Transaction.C43_transform_partial`, `Transaction.C43_transformer_once`, `Indent.C44_indent_text`, `ModuleName.C46_limits`, `Wrapper.C51_killed_counterexample`, `ModuleName.C54_trailing_dot_lost`, `Preprocess.C57_settings`, `Template.C58_initial_filter`, `FileTools.C59_twice_counterexample`, `Indent.C61_chars_counterexample`, `Indent.C61_space_counterexample`, `Mondo.C62_firstValue_counterexample`, `FileTools.C63_counterexample`, `Wrapper.C64_absolute_counterexample`, `Wrapper.C64_counterexample`, `Wrapper.C64_hangs_counterexample`, `CompileCache.C66_coding_line`, `Parser.C67_swallowed_counterexample`, `Parser.C68_generator_argument_counterexample`, `Parser.C68_nested_keyword_counterexample`, `ErrReport.C73_guessed_place_counterexample`, `ErrReport.C73_python_lines_counterexample`, `Plumb.C74_late_main_method_counterexample`, `Plumb.C74_own_main_method_counterexample`, `Plumb.C75_false_attribute_counterexample`, `Plumb.C75_inherited_attribute_counterexample`, `Plumb.C75_method_without_self_counterexample`, `Plumb.C75_template_hidden_counterexample`, `Doc.C76_class_doc_counterexample`, `Doc.C76_method_doc_changed_counterexample`, `Doc.C76_method_doc_refused_counterexample`, `Doc.C76_module_doc_counterexample`, `Doc.C76_special_name_counterexample`, `Config.C77_empty_value_counterexample`, `Config.C77_globals_counterexample`, `Config.C77_importSettings_counterexample`, `Config.C77_reset_counterexample`, `Config.C77_sum_counterexample`, `Imports.C78_cache_directory_counterexample`, `Parser.C79_capital_letters_counterexample`, `Parser.C79_only_refuses`, `Parser.C80_ternary_counterexample`, `Parser.C80_type_counterexample`, `Psp.C84_indented_code_counterexample`, `EndToEnd.C85_encoding`, `EndToEnd.C85_encoding_counterexample`, `EndToEnd.C85_first_line`, `Null.C87_own_attribute_counterexample`, `MakeDirs.C88_one_outcome`, `MakeDirs.C88_parallel_counterexample`, `MakeDirs.C88_parallel_partial`, `MakeDirs.C88_stopped`, `MakeDirs.C88_stopped_counterexample`, `ServerPath.C91_backslash_counterexample`, `ServerPath.C91_own`, `LoadPath.C93_replaced_counterexample`

**propext, Quot.sound** (177 theorems): `NameMapper.C01_first_namespace_wins`, `NameMapper.C01_hasKey_iff`, `NameMapper.C01_none`, `NameMapper.C02_valueForName`, `NameMapper.C04_attributes_of_keys_irrelevant`, `NameMapper.C04_valueForKey_is_lookup`, `NameMapper.C05_locals_first`, `NameMapper.C05_not_found`, `NameMapper.C05_precedence`, `NameMapper.C05_valueFromFrame`, `NameMapper.C06_off`, `NameMapper.C07_chunks_agree`, `NameMapper.C07_too_many_periods`, `NameMapper.C08_key_ok`, `NameMapper.C08_wrapped_once`, `Template.C09_getVar_varExists`, `Template.C10_include_sees_outer`, `Template.C10_init_fails_iff`, `Template.C10_set_global_visible`, `Cache.C14_add`, `Cache.C14_frame`, `Cache.C14_get_keyError`, `Cache.C14_get_returns_latest`, `Cache.C14_replace_counterexample`, `Cache.C15_body_is_shown`, `Cache.C15_exception_keeps_content`, `Filters.C18_ampersands_and_also`, `Filters.C18_characterwise`, `Filters.C18_injective`, `Filters.C18_no_angle_brackets`, `Filters.C19_maxLen`, `Filters.C19_maxLen_any`, `Filters.C20_stripSqueeze`, `Filters.C20_strip_lines`, `Filters.C21_decode_encode`, `Settings.C22_merge_reads`, `Settings.C22_update_overwrites`, `Compile.C25_adjacent_text_is_merged`, `Compile.C26_empty_body_counterexample`, `Compile.C26_indentation_balanced`, `Compile.C27_short_form_same_as_long`, `GenVar.C30_plain`, `Interval.C32_expiry_partial`, `ErrorCatcher.C33_evaluates_code_partial`, `Parser.C35_end_counterexample`, `Parser.C35_line_counterexample`, `Parser.C35_word_counterexample`, `Parser.C36_directive_is_whole_word`, `Parser.C40_escaped_is_no_tag_partial`, `Parser.C40_unescape_partial`, `RegexEsc.C42_alternatives`, `RegexEsc.C42_every_character_is_literal`, `RegexEsc.C42_matches_exactly`, `Transaction.C43_text_before_transform_counterexample`, `Transaction.C43_transform_in_transaction_counterexample`, `Indent.C44_isolated_partial`, `Indent.C44_level_never_negative`, `Indent.C44_push_pop_restores`, `Version.C45_order`, `Version.C45_rejects_the_rest`, `Version.C45_value`, `ModuleName.C46_character_by_character`, `ModuleName.C46_identifier_characters`, `CompileSched.C48_lock_released`, `CompileSched.C48_same_key`, `CompileCache.C49_changed_file`, `CompileCache.C49_empty_counterexample`, `CompileCache.C49_equal_settings`, `CompileCache.C49_large_number_counterexample`, `CompileCache.C49_minus_counterexample`, `CompileCache.C49_names_counterexample`, `CompileCache.C49_names_partial`, `CompileCache.C49_one_part_partial`, `CompileCache.C49_order_irrelevant`, `Wrapper.C51_all_processed`, `Wrapper.C51_all_waited_for`, `Wrapper.C51_bounded`, `Wrapper.C51_failure_reported_partial`, `Wrapper.C52_flat_destination`, `Wrapper.C52_reports`, `Wrapper.C52_tree_destination`, `ImportLock.C53_race_counterexample`, `ImportLock.C53_raised_counterexample`, `ModuleName.C54_nameSplit`, `ModuleName.C54_nameSplit_joins_back`, `Mondo.C55_injective`, `Mondo.C55_roman`, `Mondo.C55_value`, `Mondo.C56_all`, `Mondo.C56_page`, `Mondo.C56_page_other`, `Preprocess.C57_bad_tokens`, `Preprocess.C57_defaults`, `FileTools.C60_summary`, `Indent.C61_chars`, `Indent.C61_off_keeps_layout`, `Mondo.C62_firstValue_of_first`, `Mondo.C62_firstValue_partial`, `Mondo.C62_lastValue`, `Mondo.C62_next_counterexample`, `Mondo.C62_prev_counterexample`, `Wrapper.C64_absolute_destination`, `Wrapper.C64_absolute_elsewhere`, `Wrapper.C64_distinct_partial`, `CompileCache.C66_cached_text_partial`, `CompileCache.C66_counterexample`, `ErrReport.C73_caret_below_the_place`, `ErrReport.C73_first_line_counterexample`, `ErrReport.C73_form_feed_counterexample`, `ErrReport.C73_windows_end_counterexample`, `Plumb.C74_nothing_is_hidden`, `Plumb.C74_own_str_kept`, `Plumb.C74_required_there`, `Plumb.C74_str_runs_main_partial`, `Plumb.C75_attributes_stay_partial`, `Plumb.C75_template_attributes`, `Doc.C76_class_doc_is_a_literal_partial`, `Doc.C76_class_doc_value_partial`, `Doc.C76_comments_stay_comments`, `Doc.C76_def_note_is_a_comment`, `Doc.C76_documentation_is_what_was_written`, `Doc.C76_header_is_comments`, `Doc.C76_method_doc_is_a_literal`, `Doc.C76_method_doc_value_partial`, `Doc.C76_module_doc_is_a_literal_partial`, `Doc.C76_module_doc_value_partial`, `Doc.C76_special_variable_value`, `Config.C77_config_is_read`, `Config.C77_reset_partial`, `Config.C77_settings_in_text_partial`, `Imports.C78_attribute_counterexample`, `Imports.C78_bad_byte_code_counterexample`, `Imports.C78_broken_module_counterexample`, `Imports.C78_byte_code_stays_true`, `Imports.C78_dots_counterexample`, `Imports.C78_edited_template_counterexample`, `Imports.C78_files_kept`, `Imports.C78_late_directory_counterexample`, `Imports.C78_no_package_counterexample`, `Imports.C78_python_first`, `Imports.C78_relative_counterexample`, `Imports.C78_reload_counterexample`, `Imports.C78_same_second_counterexample`, `Imports.C78_second_import`, `Imports.C78_template_is_imported`, `Parser.C79_forbidden_is_absent`, `Parser.C79_settings`, `Parser.C80_call_arguments_counterexample`, `Parser.C80_code_is_shown_partial`, `Parser.C80_filter_arguments_counterexample`, `Parser.C80_word_partial`, `Setup.C83_signature`, `Null.C87_nothing_comes_of_nothing`, `MakeDirs.C88_packages`, `MakeDirs.C88_restart_partial`, `TemplateArgs.C90_accepted_partial`, `TemplateArgs.C90_class_counterexample`, `TemplateArgs.C90_collisions_partial`, `TemplateArgs.C90_filtersLib_counterexample`, `TemplateArgs.C90_found`, `TemplateArgs.C90_named`, `TemplateArgs.C90_not_both`, `TemplateArgs.C90_not_both_lists`, `TemplateArgs.C90_refused_partial`, `TemplateArgs.C90_single_namespace_counterexample`, `ServerPath.C91_again`, `ServerPath.C91_place`, `Turbo.C92_arguments`, `Turbo.C92_precompiled`, `Turbo.C92_stale_counterexample`, `Turbo.C92_stuck_counterexample`, `LoadPath.C93_directory_partial`, `LoadPath.C93_here`, `LoadPath.C93_modules`, `LoadPath.C93_no_suffix`, `LoadPath.C93_root_counterexample`, `LoadPath.C93_suffix`

**propext, Classical.choice, Quot.sound** (199 theorems): `NameMapper.C03_hasName_iff`, `NameMapper.C03_notFound_iff`, `NameMapper.C03_value_or_notFound`, `NameMapper.C06_calls_are_callables`, `NameMapper.C06_raising_call_propagates`, `NameMapper.C06_walk`, `NameMapper.C07_agree`, `NameMapper.C07_chunks_differ_iff`, `Template.C09_exists_iff`, `Reader.C11_breakpoint_in_source`, `Reader.C11_error_leaves_cursor`, `Reader.C11_setBreakPoint_counterexample`, `Reader.C11_ungetc_counterexample`, `Reader.C11_window_partial`, `Reader.C12_getc_at_breakpoint_counterexample`, `Reader.C12_readToEOL`, `Reader.C12_read_everything`, `Reader.C12_reads_conserve_source`, `Reader.C13_fails_iff`, `Reader.C13_injective`, `Reader.C13_monotone`, `Reader.C13_row_col_meaning`, `Cache.C15_body_runs_iff`, `CacheCode.C15_generated_code`, `Cache.C15_interval`, `Cache.C15_shows_last_rendering`, `Cache.C17_refresh_all`, `Cache.C17_refresh_item`, `Cache.C17_refresh_region`, `Filters.C20_strip`, `Settings.C22_merge_assoc_partial`, `Settings.C22_merge_empty`, `Settings.C22_merge_idempotent`, `Settings.C23_copy_partial`, `Settings.C23_deepcopy`, `Settings.C23_in_place`, `StrConst.C24_literal_evaluates_to_text`, `Compile.C25_output_is_concatenation`, `Compile.C26_reparses_to_same_nesting`, `Compile.C27_control_flow_means_what_it_says`, `Compile.C27_unless_is_if_not`, `Compile.C28_redirection_undone`, `Compile.C28_regions_partial`, `Compile.C29_rest_is_not_run_partial`, `Compile.C29_stop_returns_output_so_far`, `GenVar.C30_generated_code_means_the_placeholder`, `SetDirective.C31_assigns_only_the_name`, `SetDirective.C31_global_target`, `Interval.C32_cache_directive`, `Interval.C32_cache_token`, `Interval.C32_errors`, `Interval.C32_monotone`, `Interval.C32_no_token`, `Interval.C32_scientific`, `Interval.C32_static_token`, `Interval.C32_two_points_counterexample`, `Interval.C32_units`, `Interval.C32_zero_interval_counterexample`, `ErrorCatcher.C33_own_code_partial`, `ErrorCatcher.C33_shared_iff_same_text`, `ErrorCatcher.C33_wrapper_belongs_to_text`, `Parser.C34_source_without_tags`, `Parser.C34_text_between_tags`, `Parser.C35_accepted_is_nested_partial`, `Parser.C35_accepts_iff_balanced`, `Parser.C35_unbalanced_is_named`, `Parser.C36_longer_word_is_not_directive`, `Parser.C37_call_matched`, `Parser.C37_expression_matched`, `Parser.C37_mismatch_reported`, `Parser.C37_nested_accepted`, `Parser.C37_placeholder_matched`, `Parser.C37_unclosed_reported`, `Parser.C38_comment_ends_where_balanced_partial`, `Parser.C39_expression_terminates_partial`, `Parser.C39_parse_terminates`, `Parser.C39_progress_partial`, `Parser.C41_arguments_partial`, `Parser.C41_signature_partial`, `WebInput.C47_entry`, `WebInput.C47_one_entry_per_name`, `WebInput.C47_raises`, `WebInput.C47_refused_source`, `WebInput.C47_same_name_counterexample`, `WebInput.C47_stale_form_counterexample`, `CompileSched.C48_distinct_modules`, `CompileSched.C48_exclusive`, `CompileSched.C48_nested_counterexample`, `CompileSched.C48_progress_partial`, `CompileCache.C49_numbers_partial`, `Wrapper.C50_completed`, `Wrapper.C50_old_contents_survive`, `Wrapper.C51_failure_not_missed`, `Wrapper.C52_aborts_iff`, `ImportLock.C53_mutual_exclusion_partial`, `ImportLock.C53_reentrant_partial`, `ImportLock.C53_release_step_partial`, `ImportLock.C53_released_partial`, `ModuleName.C54_last_dot`, `Mondo.C56_page_too_long`, `Mondo.C56_pages_cover`, `Template.C58_include_snapshot`, `FileTools.C59_found_iff`, `FileTools.C59_multiplicity`, `FileTools.C59_once_partial`, `FileTools.C60_adds_up`, `FileTools.C60_summary_adds_up`, `Indent.C61_line_by_line`, `Indent.C61_lines`, `Mondo.C62_letter`, `Mondo.C62_median`, `Mondo.C62_position`, `FileTools.C63_counted_partial`, `CompileCache.C65_identifier`, `CompileCache.C65_underscores`, `Parser.C67_placeholder_end_partial`, `Parser.C68_arguments_translated`, `Parser.C68_expression_translated`, `Driver.C69_accepted_compiles_partial`, `Driver.C69_arg_counterexample`, `Driver.C69_nested_compiles`, `Driver.C69_psp_counterexample`, `Driver.C69_word_counterexample`, `EndToEnd.C70_blanks_before_arg_counterexample`, `EndToEnd.C70_bracket_after_placeholder_counterexample`, `EndToEnd.C70_comment_only_block_counterexample`, `EndToEnd.C70_else_if_in_string_counterexample`, `EndToEnd.C70_source_means_what_it_says_partial`, `EndToEnd.C70_stop_in_capture_counterexample`, `EndToEnd.C70_subscript_after_call_counterexample`, `EndToEnd.C70_text_after_call_counterexample`, `EndToEnd.C71_block_arguments_counterexample`, `EndToEnd.C71_definitions_become_methods_partial`, `EndToEnd.C71_nested_counterexample`, `EndToEnd.C71_respond_counterexample`, `EndToEnd.C71_trans_argument_counterexample`, `Driver.C72_brackets_counterexample`, `Driver.C72_extends_partial`, `EndToEnd.C72_header_partial`, `Driver.C72_imported_module_counterexample`, `Driver.C72_imported_package_counterexample`, `Driver.C72_imports_at_the_top`, `Driver.C72_late_extends_counterexample`, `Driver.C72_name_cut_twice_counterexample`, `Driver.C72_star_import_lost_counterexample`, `EndToEnd.C72_template_with_base_partial`, `Driver.C72_two_names_counterexample`, `ErrReport.C73_python_table_partial`, `ErrReport.C73_report_fails_iff`, `ErrReport.C73_report_of_a_line`, `ErrReport.C73_report_shows_the_place_partial`, `Doc.C76_special_variables`, `Config.C77_integers`, `Config.C77_text_is_never_run`, `Config.C77_text_stays`, `Config.C77_words`, `Imports.C78_from_package_import`, `Imports.C78_no_such_module`, `Imports.C78_relative_import`, `Imports.C78_relative_no_such_module`, `Parser.C79_other_ways_counterexample`, `Parser.C80_accepted_unchanged`, `Parser.C80_only_refuses`, `EndToEnd.C81_definition_lost_counterexample`, `EndToEnd.C81_main_method`, `EndToEnd.C81_main_method_hidden_counterexample`, `EndToEnd.C81_methods_last`, `EndToEnd.C81_names_of_a_class`, `EndToEnd.C81_names_of_a_template_partial`, `EndToEnd.C81_names_of_a_template_with_base_partial`, `Driver.C82_methods`, `Driver.C82_names`, `Driver.C82_pieces_partial`, `Driver.C82_rest_lost_counterexample`, `Driver.C82_return_or_yield`, `Setup.C83_dictionary`, `Setup.C83_lines`, `Setup.C83_parameters`, `Setup.C83_static`, `Setup.C83_static_names_counterexample`, `Setup.C83_static_names_partial`, `Setup.C83_static_text`, `Psp.C84_end_in_string_counterexample`, `Psp.C84_page`, `EndToEnd.C85_module_statements`, `EndToEnd.C85_names_of_a_module`, `EndToEnd.C85_own_imports`, `CmdLine.C86_last_wins`, `CmdLine.C86_options`, `CmdLine.C86_printed_iff`, `CmdLine.C86_set_global_counterexample`, `CmdLine.C86_stdin_twice`, `CmdLine.C86_unknown`, `ClassCode.C89_class_code_partial`, `ClassCode.C89_cut_counterexample`, `ClassCode.C89_docstring_counterexample`, `TemplateArgs.C90_silent_counterexample`, `TemplateArgs.C90_tuple_counterexample`, `Turbo.C92_current_partial`
