{"id": "C01", "title": "Search-list shadowing is decided by the first component alone", "statement": "valueFromSearchList(searchList, name) resolves the whole dotted name inside the first namespace that has the first component. Namespaces before it do not have the component, namespaces after it cannot influence the value or the error, and there is no backtracking when a later component is missing.", "quantifier": "every search list, every dotted name, every shape of the objects in it", "why_tests_cant": "The set of search lists and object graphs is unbounded; a test fixes a handful of them and cannot exclude a later namespace leaking in.", "anchors": ["Cheetah/NameMapper.py:valueFromSearchList", "Cheetah/NameMapper.py:hasKey", "Cheetah/NameMapper.py:_valueForName"]}
{"id": "C02", "title": "Dotted lookup is compositional", "statement": "Looking up 'p.q' on an object gives the same value, the same error and the same sequence of automatic calls as looking up 'p' and then looking up 'q' on the result.", "quantifier": "every object, every pair of non-empty dotted names, both autocall modes", "why_tests_cant": "Depth of the names and of the object graph is unbounded.", "anchors": ["Cheetah/NameMapper.py:valueForName", "Cheetah/NameMapper.py:_valueForName"]}
{"id": "C03", "title": "NotFound is raised exactly when a component is missing", "statement": "A lookup that performs no failing user call raises NotFound if and only if no namespace has the first component or some later component is neither a key nor an attribute of the value reached so far; otherwise it returns a value. hasName agrees with this.", "quantifier": "every search list, name and object graph", "why_tests_cant": "Exactness (both directions) over all object graphs cannot be sampled.", "anchors": ["Cheetah/NameMapper.py:valueFromSearchList", "Cheetah/NameMapper.py:hasName", "Cheetah/NameMapper.py:_valueForName"]}
{"id": "C04", "title": "Mapping keys shadow attributes at every step", "statement": "At each step of a dotted lookup, when the value reached is a mapping containing the component as a key, the key's value is used even if an attribute of that name exists; attributes are used only otherwise.", "quantifier": "every step of every lookup on every object graph", "why_tests_cant": "It must hold at every depth of every name.", "anchors": ["Cheetah/NameMapper.py:_valueForName", "Cheetah/NameMapper.py:hasKey"]}
{"id": "C05", "title": "Placeholder precedence: locals, search list, globals, builtins", "statement": "In a running template method, a $placeholder is resolved in the local variables first, then in the search list in order, then in module globals, then in builtins; the first that has the first component wins.", "quantifier": "every frame, search list and name", "why_tests_cant": "All combinations of presence/absence over an unbounded list of namespaces.", "anchors": ["Cheetah/NameMapper.py:valueFromFrameOrSearchList", "Cheetah/NameMapper.py:valueFromFrame", "Cheetah/NameMapper.py:_namespaces"]}
{"id": "C06", "title": "Autocalling calls exactly the callables on the path, once each, in order", "statement": "With autocalling on, each value reached on the path that is callable and is not a class or a plain instance is called exactly once with no arguments and its result replaces it; with autocalling off nothing is ever called. An exception raised by such a call stops the lookup and propagates.", "quantifier": "every object graph and dotted name, both autocall modes", "why_tests_cant": "The number of calls depends on path length and on values produced by calls.", "anchors": ["Cheetah/NameMapper.py:_valueForName", "Cheetah/NameMapper.py:_isInstanceOrClass"]}
{"id": "C07", "title": "The C accelerator and the pure Python lookup agree", "statement": "For every dotted name the template compiler can produce, _namemapper.c and NameMapper.py return the same value or both report the name as not found; the names on which they disagree are exactly characterised (too many components, empty or trailing component).", "quantifier": "every name string and every object graph", "why_tests_cant": "Agreement of two implementations over all strings and objects is not a finite check.", "anchors": ["Cheetah/c/_namemapper.c:getNameChunks", "Cheetah/c/_namemapper.c:PyNamemapper_valueForName", "Cheetah/NameMapper.py:_valueForName"]}
{"id": "C08", "title": "A NotFound message is annotated with the full searched name at most once", "statement": "However many lookup layers re-raise a NotFound, the message ends up containing the original missing key and exactly one 'while searching for' note, namely the one added by the innermost layer.", "quantifier": "every sequence of wrapping layers and names", "why_tests_cant": "Nesting depth of lookups is unbounded.", "anchors": ["Cheetah/NameMapper.py:_wrapNotFoundException", "Cheetah/NameMapper.py:_raiseNotFoundException"]}
{"id": "C09", "title": "getVar, varExists and defaults agree", "statement": "varExists(name) is True exactly when getVar(name) without a default does not raise NotFound; with a default, getVar returns the found value if there is one and the default only on NotFound; a '$' in the name is ignored.", "quantifier": "every search list, name and default", "why_tests_cant": "All search lists and names.", "anchors": ["Cheetah/Template.py:Template.getVar", "Cheetah/Template.py:Template.varExists"]}
{"id": "C10", "title": "Composition of the template search list", "statement": "A new template instance searches its '#set global' variables first, then itself, then the caller's namespaces in the order given; with prioritizeSearchListOverSelf the caller's namespaces come first; an included template searches everything its includer searches and then itself, and shares the includer's '#set global' variables.", "quantifier": "every list of namespaces and every nesting of includes", "why_tests_cant": "Unbounded lists and include depth.", "anchors": ["Cheetah/Template.py:Template._initCheetahInstance", "Cheetah/Template.py:Template._handleCheetahInclude"]}
{"id": "C11", "title": "The source cursor never leaves the readable window", "statement": "Starting from a fresh reader, after any sequence of cursor operations whatever their arguments, and whether they succeed or raise, 0 <= pos <= breakPoint <= len(source); an operation that raises a position error leaves the cursor where it was.", "quantifier": "every source text and every sequence of operations", "why_tests_cant": "Operation sequences are unbounded.", "anchors": ["Cheetah/SourceReader.py:SourceReader.setPos", "Cheetah/SourceReader.py:SourceReader.advance", "Cheetah/SourceReader.py:SourceReader.setBreakPoint", "Cheetah/SourceReader.py:SourceReader.read"]}
{"id": "C12", "title": "Reading conserves the source", "statement": "Consecutive successful reads return consecutive slices: concatenating what was read from the start up to the current position gives exactly source[start:pos], nothing skipped, duplicated or altered; readToEOL with and without gobble stops exactly before or after the line terminator.", "quantifier": "every source text and every sequence of reads", "why_tests_cant": "Unbounded sequences and texts.", "anchors": ["Cheetah/SourceReader.py:SourceReader.read", "Cheetah/SourceReader.py:SourceReader.readTo", "Cheetah/SourceReader.py:SourceReader.readToEOL", "Cheetah/SourceReader.py:SourceReader.getc"]}
{"id": "C13", "title": "Reported row and column identify the position", "statement": "For every position on a line, the reported (row, column) is 1-based, its row is one more than the number of line ends before the position, its column counts from the beginning of that line, and two different positions never have the same (row, column). Positions for which no row exists are characterised.", "quantifier": "every source text and every position", "why_tests_cant": "All texts, all mixtures of \\n, \\r and \\r\\n terminators.", "anchors": ["Cheetah/SourceReader.py:SourceReader.getRowCol", "Cheetah/SourceReader.py:SourceReader.lineNum", "Cheetah/SourceReader.py:SourceReader.__init__"]}
{"id": "C14", "title": "The in-memory cache store is a map with expiry", "statement": "After any history of set/add/delete/get/clear at non-decreasing times, get(key) returns the value most recently stored under that key if it has not been deleted, cleared or expired since, and raises KeyError otherwise; add refuses to overwrite and never changes other keys; replace is documented to overwrite only existing keys.", "quantifier": "every history of operations and times", "why_tests_cant": "Histories are unbounded.", "anchors": ["Cheetah/CacheStore.py:MemoryCacheStore"]}
{"id": "C15", "title": "A cached region shows exactly the body rendered at the last refresh", "statement": "For every history of renders of a #cache region, the text emitted equals the text the body produced at the most recent refresh; the body is executed at a render exactly when the region is new, has expired, or its refresh conditions ask for it; if the body raises, the earlier content stays in the cache and output goes back to the outer stream.", "quantifier": "every sequence of renders, times, body outputs and failures", "why_tests_cant": "Depends on the whole history and on crash points inside the body.", "anchors": ["Cheetah/CacheRegion.py:CacheItem", "Cheetah/Compiler.py:MethodCompiler.startCacheRegion", "Cheetah/Compiler.py:MethodCompiler.endCacheRegion"]}
{"id": "C16", "title": "Cache keys of different regions and items never collide", "statement": "Two cache items get the same key in a shared store only when template prefix, region id and item digest all agree, provided the template prefix contains no ':'; a prefix containing ':' can collide.", "quantifier": "every pair of (prefix, region id, item id)", "why_tests_cant": "A collision is a property of all pairs of strings.", "anchors": ["Cheetah/CacheRegion.py:CacheRegion", "Cheetah/CacheRegion.py:_CacheDataStoreWrapper", "Cheetah/Template.py:Template._getCacheStoreIdPrefix"]}
{"id": "C17", "title": "refreshCache forces re-rendering", "statement": "After refreshCache() returns normally, the next render of each region it covers executes the body again, and regions not covered are untouched; the histories in which refreshCache raises instead are characterised.", "quantifier": "every history of renders and refreshes", "why_tests_cant": "Unbounded histories, including expiry between render and refresh.", "anchors": ["Cheetah/Template.py:Template.refreshCache", "Cheetah/CacheRegion.py:CacheRegion.clear", "Cheetah/CacheRegion.py:CacheItem.clear"]}
{"id": "C18", "title": "WebSafe output is safe and lossless", "statement": "The WebSafe filter's output contains no '<' or '>'. Provided 'also' has no character the entities themselves are made of: every '&' in the output begins one of the entities the filter writes, characters listed in 'also' do not occur raw, and different inputs give different outputs.", "quantifier": "every input string and every 'also' list", "why_tests_cant": "Escaping bugs show only on particular interactions of characters.", "anchors": ["Cheetah/Filters.py:WebSafe.filter"]}
{"id": "C19", "title": "Filter basics: None is empty, strings pass through, MaxLen truncates", "statement": "The default filters turn None into the empty string and leave text unchanged; MaxLen output is a prefix of the unfiltered text, at most maxlen characters long, and equals the text when it is short enough.", "quantifier": "every value and every length", "why_tests_cant": "Unbounded strings and lengths, including zero and negative slices.", "anchors": ["Cheetah/Filters.py:Filter.filter", "Cheetah/Filters.py:MaxLen.filter"]}
{"id": "C20", "title": "Strip and StripSqueeze normalise whitespace only", "statement": "Strip removes exactly the leading and trailing whitespace of every line, keeps the number and order of lines, and is idempotent; StripSqueeze yields the words of the input joined by single spaces, without leading or trailing blank, and is idempotent. Neither changes any non-whitespace character or the order of them.", "quantifier": "every input string", "why_tests_cant": "All strings, all arrangements of line breaks and blanks.", "anchors": ["Cheetah/Filters.py:Strip.filter", "Cheetah/Filters.py:StripSqueeze.filter"]}
{"id": "C21", "title": "htmlDecode inverts htmlEncode", "statement": "htmlDecode(htmlEncode(s)) == s and htmlEncode(s) contains no '<', '>' or '\"'.", "quantifier": "every string", "why_tests_cant": "Round trips over all strings, including those already containing entities.", "anchors": ["Cheetah/Utils/htmlEncode.py", "Cheetah/Utils/htmlDecode.py"]}
{"id": "C22", "title": "Merging nested settings is right-biased and local", "statement": "After merging settings B into A, a path reads B's value where B defines it and A's value elsewhere, dictionaries are merged recursively, nothing else appears, merging the same settings twice changes nothing, and merging is associative.", "quantifier": "every pair/triple of nested dictionaries and every path", "why_tests_cant": "Unbounded nesting.", "anchors": ["Cheetah/SettingsManager.py:mergeNestedDictionaries", "Cheetah/SettingsManager.py:SettingsManager.updateSettings"]}
{"id": "C23", "title": "Merging does not disturb its inputs", "statement": "With copying requested, merging leaves both input dictionaries observably unchanged; without it only the first is changed; the remaining sharing between result and inputs is characterised.", "quantifier": "every heap of dictionaries and every pair of roots", "why_tests_cant": "Aliasing appears only in particular heaps and later updates.", "anchors": ["Cheetah/SettingsManager.py:mergeNestedDictionaries"]}
{"id": "C24", "title": "Template text survives code generation byte for byte", "statement": "For every piece of literal template text, the Python string literal the compiler writes for it evaluates to exactly that text, whatever quotes, backslashes, newlines or control characters it contains.", "quantifier": "every string of characters", "why_tests_cant": "The literal is built by repr, quote surgery and a regex substitution; failing inputs are rare combinations of backslashes and quotes.", "anchors": ["Cheetah/Compiler.py:MethodCompiler.commitStrConst", "Cheetah/Parser.py:escapedNewlineRE"]}
{"id": "C25", "title": "Adjacent text and placeholders keep their order", "statement": "The output of a template method is the concatenation, in source order, of its literal texts and its filtered placeholder values; merging adjacent text into one constant changes nothing and no pending text is lost or moved across another statement.", "quantifier": "every sequence of text, placeholder and statement chunks", "why_tests_cant": "The flush discipline of pending text must hold for all interleavings.", "anchors": ["Cheetah/Compiler.py:MethodCompiler.addStrConst", "Cheetah/Compiler.py:MethodCompiler.commitStrConst", "Cheetah/Compiler.py:MethodCompiler.addChunk"]}
{"id": "C26", "title": "Generated code is correctly indented for every nesting", "statement": "Every balanced sequence of directives yields generated code in which each statement has exactly the indentation of its nesting depth, each block header is followed by a more deeply indented line, and the indentation returns to where it started; the generated code therefore re-parses to the same nesting.", "quantifier": "every balanced directive sequence of any depth", "why_tests_cant": "Unbounded nesting and interleaving with pending text.", "anchors": ["Cheetah/Compiler.py:MethodCompiler.indent", "Cheetah/Compiler.py:MethodCompiler.addIndentingDirective", "Cheetah/Compiler.py:MethodCompiler.addReIndentingDirective"]}
{"id": "C27", "title": "Control-flow directives mean what they say", "statement": "For every template built from text, placeholders, #set, #if/#elif/#else, #unless, #for, #while, #repeat, #break/#continue, running the generated code yields the output and variable bindings given by the directive's direct semantics.", "quantifier": "every template of the language fragment, every environment, any number of iterations", "why_tests_cant": "Programs and loop counts are unbounded.", "anchors": ["Cheetah/Compiler.py:MethodCompiler", "Cheetah/Parser.py:_HighLevelParser"]}
{"id": "C28", "title": "Output redirection is undone after #capture, #call, #cache and #filter", "statement": "After a #capture, #call, #cache or #filter region ends, later output goes to the stream and through the filter that were in force before it, for every nesting; text inside #capture goes only to the captured variable and text inside #call only to the called function.", "quantifier": "every nesting of regions, bodies and environments", "why_tests_cant": "Unbounded nesting; state is saved in generated local variables whose names must not clash.", "anchors": ["Cheetah/Compiler.py:MethodCompiler.startCallRegion", "Cheetah/Compiler.py:MethodCompiler.endCallRegion", "Cheetah/Compiler.py:MethodCompiler.startCaptureRegion", "Cheetah/Compiler.py:MethodCompiler.setFilter", "Cheetah/Compiler.py:MethodCompiler.closeFilterBlock"]}
{"id": "C29", "title": "#stop ends output at that point", "statement": "A #stop makes the method return exactly the output produced before it; inside a capture, call or cache region this fails: only the region's text is returned.", "quantifier": "every template and every position of #stop", "why_tests_cant": "All programs and positions.", "anchors": ["Cheetah/Compiler.py:AutoMethodCompiler.addStop", "Cheetah/Compiler.py:AutoMethodCompiler._addAutoSetupCode"]}
{"id": "C30", "title": "Placeholders generate left-to-right lookups", "statement": "The Python expression generated for $a.b(args).c[i].d evaluates the name components, calls and subscripts strictly from left to right, with the longest dotted runs looked up as one NameMapper lookup, and gives the same value or error as the step-by-step reading of the placeholder; with the NameMapper switched off it is the plain Python expression.", "quantifier": "every chain of components, calls and subscripts", "why_tests_cant": "Chains are unbounded and the grouping algorithm is recursive.", "anchors": ["Cheetah/Compiler.py:GenUtils.genNameMapperVar", "Cheetah/Compiler.py:GenUtils.genCheetahVar", "Cheetah/Compiler.py:GenUtils.genPlainVar"]}
{"id": "C31", "title": "#set assigns the named target only", "statement": "A '#set $x = e' binds local x; '#set global $x.rest op e' goes to the global-set variables under the name before the first '.', '[' boundary chosen by the compiler; for every left-hand side the split loses no characters.", "quantifier": "every left-hand side", "why_tests_cant": "All strings of dots and brackets.", "anchors": ["Cheetah/Compiler.py:MethodCompiler.addSet"]}
{"id": "C32", "title": "Cache interval strings", "statement": "An interval with suffix s, m, h, d, w means that number of seconds, minutes, hours, days or weeks; without suffix it is minutes; longer intervals map to larger values.", "quantifier": "every interval string", "why_tests_cant": "All numerals.", "anchors": ["Cheetah/Compiler.py:GenUtils.genTimeInterval", "Cheetah/Compiler.py:GenUtils.genCacheInfo"]}
{"id": "C33", "title": "Error catchers: one wrapper per placeholder source", "statement": "With an error catcher active, every placeholder is routed to a wrapper method belonging to exactly that placeholder text; equal texts share a wrapper, different texts never do, and wrapper names are distinct.", "quantifier": "every sequence of placeholders in a class", "why_tests_cant": "Unbounded sequences.", "anchors": ["Cheetah/Compiler.py:ClassCompiler.addErrorCatcherCall"]}
{"id": "C34", "title": "Text outside tags passes through the parser unchanged", "statement": "For every source text in which no position starts a placeholder, directive, comment, PSP or other tag, parsing succeeds, consumes the whole text and emits exactly that text, apart from removing the backslash of \\$ and \\#.", "quantifier": "every source text", "why_tests_cant": "All strings; near-miss tokens are the failing inputs.", "anchors": ["Cheetah/Parser.py:_HighLevelParser.parse", "Cheetah/Parser.py:_HighLevelParser.eatPlainText", "Cheetah/Parser.py:_LowLevelParser.matchTopLevelToken"]}
{"id": "C35", "title": "Only properly nested directives are accepted", "statement": "A sequence of block-opening directives and #end directives is accepted if and only if it is properly nested with matching names and nothing left open; the error names the innermost open directive.", "quantifier": "every sequence of directives", "why_tests_cant": "Nesting depth is unbounded.", "anchors": ["Cheetah/Parser.py:_HighLevelParser.pushToOpenDirectivesStack", "Cheetah/Parser.py:_HighLevelParser.popFromOpenDirectivesStack", "Cheetah/Parser.py:_HighLevelParser.assertEmptyOpenDirectivesStack"]}
{"id": "C36", "title": "Directive names are matched as whole words", "statement": "After a directive token, the directive recognised is the unique enabled directive name that is followed by a non-identifier character; a name that merely starts with a directive name is never taken for it, except where a macro or the special one-character names say so.", "quantifier": "every text after the token and every set of enabled directives", "why_tests_cant": "All continuations and all directive tables, including user macros.", "anchors": ["Cheetah/Parser.py:_LowLevelParser.matchDirectiveName", "Cheetah/Parser.py:_HighLevelParser._initDirectives"]}
{"id": "C37", "title": "Brackets in expressions are matched", "statement": "Extracting the argument list of a placeholder call or an expression consumes a prefix with correctly matched (), [] and {}, never stops inside an open bracket, and rejects every mismatched or unclosed bracket.", "quantifier": "every token sequence", "why_tests_cant": "Nesting is unbounded.", "anchors": ["Cheetah/Parser.py:_LowLevelParser.getCallArgString", "Cheetah/Parser.py:_LowLevelParser.getExpressionParts"]}
{"id": "C38", "title": "Nested multi-line comments", "statement": "A multi-line comment ends at the #* / *# token that balances its start; what is skipped is exactly the comment, so the text after it is preserved.", "quantifier": "every source text", "why_tests_cant": "All nestings, including adjacent tokens.", "anchors": ["Cheetah/Parser.py:_HighLevelParser.eatMultiLineComment"]}
{"id": "C39", "title": "Parsing terminates and always makes progress", "statement": "For every source text each top-level step of the parser either raises a ParseError or consumes at least one character, so parsing takes at most len(source) steps.", "quantifier": "every source text", "why_tests_cant": "Non-termination appears only on particular inputs.", "anchors": ["Cheetah/Parser.py:_HighLevelParser.parse"]}
{"id": "C40", "title": "Escapes: \\$ and \\# produce the literal character", "statement": "In text, a backslash before a placeholder or directive token is removed and the token is emitted literally; every other backslash is kept; the rule is applied once, left to right.", "quantifier": "every string", "why_tests_cant": "Runs of backslashes of any length.", "anchors": ["Cheetah/Parser.py:_LowLevelParser._unescapeCheetahVars", "Cheetah/Parser.py:_LowLevelParser._unescapeDirectives"]}
{"id": "C41", "title": "Default-argument lists survive parsing", "statement": "The argument list of #def/#block/#call is split into exactly the (name, default) pairs written, in order; regenerating the signature yields the same parameters.", "quantifier": "every list of arguments", "why_tests_cant": "Unbounded argument lists and nested brackets in defaults.", "anchors": ["Cheetah/Parser.py:ArgList", "Cheetah/Parser.py:_LowLevelParser.getDefArgList", "Cheetah/Compiler.py:AutoMethodCompiler.methodSignature"]}
{"id": "C42", "title": "Literal regex escaping", "statement": "escapeRegexChars(s) is a pattern that matches exactly the string s, for every token string a user may configure.", "quantifier": "every string", "why_tests_cant": "All strings over all metacharacters.", "anchors": ["Cheetah/Parser.py:escapeRegexChars"]}
{"id": "C43", "title": "Output equals the concatenation of what was written", "statement": "Without a transaction, respond() returns the concatenation of all written chunks in order; converting to text and transformer filters are applied exactly once.", "quantifier": "every sequence of writes", "why_tests_cant": "Unbounded sequences.", "anchors": ["Cheetah/DummyTransaction.py:DummyResponse", "Cheetah/DummyTransaction.py:TransformerResponse"]}
{"id": "C44", "title": "Indentation level never goes negative and push/pop restore it", "statement": "Under any sequence of #indent operations the level is never negative, push followed by a balanced sequence and pop restores level and indentation text; indentation stacks of different templates do not interfere.", "quantifier": "every sequence of operations on any number of templates", "why_tests_cant": "Unbounded sequences; interference needs two instances.", "anchors": ["Cheetah/Utils/Indenter.py:Indenter"]}
{"id": "C45", "title": "Version ordering", "statement": "Converting version strings to tuples orders alpha < beta < candidate < final of the same release and orders releases numerically; malformed strings are rejected.", "quantifier": "every pair of version strings", "why_tests_cant": "All pairs.", "anchors": ["Cheetah/Version.py:convertVersionStringToTuple"]}
{"id": "C46", "title": "Template paths become identifiers", "statement": "The module name computed from a template path contains only letters, digits and underscores and has the same length, for paths of characters below 256; characters above are passed through unchanged.", "quantifier": "every path string", "why_tests_cant": "All characters.", "anchors": ["Cheetah/convertTmplPathToModuleName.py"]}
{"id": "C47", "title": "Web input lookup", "statement": "webInput yields exactly one entry per requested name; single values and multi values have the documented shape; the typed name is searched before the bare name; a missing or bad value gives the default/bad value or raises it when it is an exception class.", "quantifier": "every set of names, fields and converters", "why_tests_cant": "All combinations.", "anchors": ["Cheetah/Utils/WebInputMixin.py:_lookup", "Cheetah/Template.py:Template.webInput", "Cheetah/Utils/Misc.py:useOrRaise"]}
{"id": "C48", "title": "Concurrent compilations never share a module", "statement": "For every interleaving of threads calling Template.compile, no two compilations register the same module name or overwrite each other's module, the compile lock is always released, and a cache hit returns a class compiled from the same request key.", "quantifier": "every number of threads and every interleaving, including failing compilations", "why_tests_cant": "Schedules cannot be enumerated by tests.", "anchors": ["Cheetah/Template.py:Template.compile", "Cheetah/Template.py:_genUniqueModuleName"]}
{"id": "C49", "title": "Compile-cache keys identify the request", "statement": "Two compile requests share a cached class only when their keys are equal; the key distinguishes requests whose hashed parts differ, up to the ambiguity of concatenation without separators, which is characterised.", "quantifier": "every pair of requests", "why_tests_cant": "All pairs of argument tuples.", "anchors": ["Cheetah/Template.py:Template.compile", "Cheetah/Template.py:hashDict", "Cheetah/Template.py:hashList"]}
{"id": "C50", "title": "A crash during 'cheetah compile' does not lose the previous output", "statement": "With backups enabled, at every crash point while regenerating an existing destination file, the previous contents are complete in the destination or in the backup file.", "quantifier": "every crash point and every file system state", "why_tests_cant": "Crash points cannot be covered by tests.", "anchors": ["Cheetah/CheetahWrapper.py:CheetahWrapper._compileOrFillBundle"]}
{"id": "C51", "title": "Parallel compilation: bounded children, complete collection, failure reported", "statement": "With --parallel=N at most N children run at once, every child is waited for, every bundle is processed unless some child failed, and the exit status is failure if and only if some child exited with non-zero status.", "quantifier": "every N, every bundle list and every order of child termination", "why_tests_cant": "The order of terminations is a schedule.", "anchors": ["Cheetah/CheetahWrapper.py:CheetahWrapper._compileOrFill"]}
{"id": "C52", "title": "Destination collisions are detected in flat mode", "statement": "With --flat, compilation is aborted if and only if two source files map to one destination, before anything is written; the reported groups are exactly the colliding sources.", "quantifier": "every list of source files and options", "why_tests_cant": "All lists.", "anchors": ["Cheetah/CheetahWrapper.py:CheetahWrapper._checkForCollisions", "Cheetah/CheetahWrapper.py:CheetahWrapper._getBundles"]}
{"id": "C53", "title": "The import lock is exclusive and re-entrant", "statement": "For every interleaving, at most one thread is inside the import hook's critical section; a thread may re-enter its own; releases match acquires.", "quantifier": "every number of threads and every interleaving", "why_tests_cant": "Schedules cannot be enumerated by tests.", "anchors": ["Cheetah/ImportManager.py:ImportManager._acquire", "Cheetah/ImportManager.py:ImportManager._release"]}
{"id": "C54", "title": "Splitting module names", "statement": "nameSplit splits a dotted name into its components so that joining them restores it (unless it ends in '.'), packageName is the name without the last component, and getPathExt is the last extension.", "quantifier": "every string", "why_tests_cant": "All strings.", "anchors": ["Cheetah/ImportManager.py:nameSplit", "Cheetah/ImportManager.py:packageName", "Cheetah/ImportManager.py:getPathExt"]}
{"id": "C55", "title": "Roman numerals", "statement": "Roman(n) is, for every positive n, a numeral whose value is n, and it is the canonical one for n < 4000.", "quantifier": "every positive integer", "why_tests_cant": "Unbounded integers.", "anchors": ["Cheetah/Tools/MondoReport.py:Roman"]}
{"id": "C56", "title": "Paging a report", "statement": "page(size, start) returns exactly the size records beginning at start with matching statistics when that many exist; otherwise it raises; paging with a dividing size covers every record exactly once.", "quantifier": "every list, size and start", "why_tests_cant": "All lists and sizes.", "anchors": ["Cheetah/Tools/MondoReport.py:MondoReport.page"]}
{"id": "C57", "title": "Preprocessor tokens only fill in what the caller left open", "statement": "Deriving compiler settings from preprocessor tokens never overrides a setting supplied by the caller and sets exactly the documented defaults for the others.", "quantifier": "every settings dictionary and token pair", "why_tests_cant": "All subsets of provided settings.", "anchors": ["Cheetah/Template.py:Template._updateSettingsWithPreprocessTokens"]}
{"id": "C58", "title": "#include renders through the includer's initial filter and is compiled once", "statement": "Within one template instance each distinct include argument is compiled (or read) at most once, later includes reuse it, and every included template filters its placeholders with the outermost template's initial filter.", "quantifier": "every sequence and nesting of includes", "why_tests_cant": "Unbounded sequences and depth.", "anchors": ["Cheetah/Template.py:Template._handleCheetahInclude"]}
{"id": "C59", "title": "Recursive file search visits each matching file once", "statement": "The file finder returns exactly the files below the root that match the globs and none below ignored directories, each once.", "quantifier": "every directory tree", "why_tests_cant": "All trees.", "anchors": ["Cheetah/FileUtils.py:FileFinder.walkDirTree"]}
{"id": "C60", "title": "Source statistics add up", "statement": "For every file, code, blank and comment line counts add up to the total, and the summary totals are the sums over the files.", "quantifier": "every file and list of files", "why_tests_cant": "All files.", "anchors": ["Cheetah/FileUtils.py:SourceFileStats"]}
{"id": "C61", "title": "The #indent preprocessor works line by line", "statement": "Preprocessing a source with #indent directives keeps the number of lines; a text line is replaced by a placeholder that yields its indentation followed by the unindented text, other directives are unchanged, and each #indent directive becomes the indenter call it documents; with the indenter switched off the layout is unchanged.", "quantifier": "every source text", "why_tests_cant": "Ranges over all sources; every line and every mixture of tabs, blanks and other white space must be treated.", "anchors": ["Cheetah/Utils/Indenter.py:IndentProcessor.process", "Cheetah/Utils/Indenter.py:Indenter.indent"]}
{"id": "C62", "title": "Record statistics", "statement": "In a report, the statistics of the i-th record give its number, whether it is first or last, its parity, its letter (A to Z for the first 26) and whether its value differs from its neighbours' (firstValue, lastValue); next() and prev() give the neighbouring pages; the median splits the list in halves.", "quantifier": "every list, every record and every field", "why_tests_cant": "All lists and positions.", "anchors": ["Cheetah/Tools/MondoReport.py:RecordStats", "Cheetah/Tools/MondoReport.py:median"]}
{"id": "C63", "title": "Source statistics classify lines", "statement": "A line is counted as a comment if and only if its first non-blank character is '#', as blank if and only if it holds only white space, and as code otherwise.", "quantifier": "every line", "why_tests_cant": "All lines.", "anchors": ["Cheetah/FileUtils.py:SourceFileStats.getFileStats"]}
{"id": "C64", "title": "Without --flat distinct sources have distinct destinations", "statement": "Without --flat, different source files are written to different destination files, so none overwrites another, and computing the destinations terminates.", "quantifier": "every list of source paths and every option set", "why_tests_cant": "All paths.", "anchors": ["Cheetah/CheetahWrapper.py:CheetahWrapper._getBundles"]}
{"id": "C65", "title": "Main class names", "statement": "Template.compile removes all leading underscores of the class name (or of the module name it defaults to), except that one stays when a digit or nothing follows; a name without leading underscores is kept; from an identifier it makes an identifier that the original ends with.", "quantifier": "every name", "why_tests_cant": "All names; the regular expression backtracks differently for digits and for names of underscores only.", "anchors": ["Cheetah/Template.py:Template.compile"]}
{"id": "C66", "title": "Module text does not depend on the cache", "statement": "Template.compile(..., returnAClass=False) returns the same bytes whether the template was compiled by this call or found in the compilation cache, and a non-ASCII module has its coding line as the second line with the other lines unchanged.", "quantifier": "every template text and encoding", "why_tests_cant": "Depends on the history of compile calls in the process and on all texts.", "anchors": ["Cheetah/Template.py:Template.compile"]}
{"id": "C67", "title": "A placeholder ends where it is closed", "statement": "The text after the closing bracket of ${...}, $(...) or $[...] is not part of the placeholder: parsing continues with the character after that bracket.", "quantifier": "every enclosed placeholder and every text after it", "why_tests_cant": "All following texts; only certain first characters fail.", "anchors": ["Cheetah/Parser.py:_LowLevelParser.getPlaceholder", "Cheetah/Parser.py:_LowLevelParser.getExpressionParts"]}
{"id": "C68", "title": "Expressions reach Python as written", "statement": "The expression of a directive, and the arguments of a call, reach the generated Python code as the author wrote them, character for character, except that every placeholder in them ($name, $a.b, $a.b(...), $a.b[...], and chains of these such as $a.b(...).c[...].d, where each part is looked up in the value of the parts before it) is replaced by the look-up of its name; what a placeholder with call arguments finds is not called a second time. The name of a keyword argument of a placeholder and the variables of a comprehension lose their $ and are not looked up. Brackets may be nested to any depth and placeholders may occur inside them.", "quantifier": "every expression made of Python tokens, blanks, brackets and placeholders, every text before and after it, and every tokenizer", "why_tests_cant": "Expressions are unbounded in length and nesting.", "anchors": ["Cheetah/Parser.py:_LowLevelParser.getExpressionParts", "Cheetah/Parser.py:_LowLevelParser.getCallArgString", "Cheetah/Parser.py:_LowLevelParser.getCheetahVarNameChunks", "Cheetah/Compiler.py:GenUtils.genNameMapperVar"]}
{"id": "C69", "title": "An accepted template compiles", "statement": "If parsing a template succeeds, generating the code for it succeeds too: the only failures are those the contents of one directive explain (an empty PSP block, an import statement or an #extends without a name, a cache interval that is not a number, #return and #yield together, an #attr with a placeholder). Whatever the nesting of blocks, regions, closures and methods, the indentation never goes wrong and no region or method is ended that is not open.", "quantifier": "every template source and every compiler setting modelled", "why_tests_cant": "All sources, with blocks nested to any depth and in any combination.", "anchors": ["Cheetah/Compiler.py:MethodCompiler", "Cheetah/Compiler.py:AutoMethodCompiler", "Cheetah/Compiler.py:ClassCompiler", "Cheetah/Parser.py:_HighLevelParser"]}
{"id": "C70", "title": "A template does what it says", "statement": "Compiling the source of a template and calling the resulting method writes the texts and the filtered values of the placeholders in the order in which control flow passes them: #if/#unless/#elif/#else choose the branch of the first condition that holds, #if c then a else b writes the filtered value of a or of b, #while, #repeat and #for run their bodies as often as Python would, #break and #continue act on the innermost loop, #try with #except, #else and #finally acts as Python's statement, #set and #set global with any of the assignment operators, #silent, #echo, #del, #assert, #raise and #pass do what they name, #stop ends the output; #slurp joins a line to the next, #raw writes its text as it is, #set global and #include hand their expression to the global variables and to the include machinery; #capture puts the output of its body into a variable, #call hands it to a function, or hands it the output of each #arg under its name, and writes the filtered result, #filter writes the placeholders of its body through another filter and the ones behind it through the former again; $!name writes nothing if the name is not found; comments write nothing; \\$ and \\# write $ and #, and every other text is written as it is, tag characters included where no tag starts; a directive or comment on a line of its own leaves no trace of that line in the output, while a directive within a line or at the end of a line leaves the text, blanks and line end around it as they are. Nothing else is written, and nothing is evaluated twice or out of order.", "quantifier": "every source built from text, placeholders ($name, $name(...), $name[...], ${expression}, $!...), comments (## and #*...*#), #def, #block and these directives nested to any depth, every expression in them, every environment and every reading of the Python expressions", "why_tests_cant": "Sources are unbounded in size and nesting and the environments are arbitrary.", "anchors": ["Cheetah/Parser.py:_HighLevelParser.parse", "Cheetah/Compiler.py:MethodCompiler", "Cheetah/Compiler.py:ModuleCompiler", "Cheetah/Compiler.py:AutoMethodCompiler"]}
{"id": "C71", "title": "#def and #block become methods", "statement": "Each #def and each #block of a template, wherever it stands (also in a branch or a loop), becomes exactly one method of the generated class, and there are no other methods besides respond. The method has the name and, after self, the arguments and default values that the source gives it, in that order, and calling it writes what its body says. A #def writes nothing where it stands; a #block calls its method there.", "quantifier": "every source of C70 with any number of #def and #block directives at any depth, every argument list with defaults, every reading of the Python expressions", "why_tests_cant": "Sources, nesting and argument lists are unbounded; text pending before a definition and text after it must not be lost, reordered or land in the wrong method for any combination.", "anchors": ["Cheetah/Parser.py:_HighLevelParser._eatDefOrBlock", "Cheetah/Compiler.py:ClassCompiler.closeDef", "Cheetah/Compiler.py:ClassCompiler.closeBlock", "Cheetah/Compiler.py:AutoMethodCompiler.cleanupState"]}
{"id": "C72", "title": "#extends derives from the class it names", "statement": "A template with #extends is derived from the classes named there, under their own names and in that order. A class that was not imported before is imported from the module of the same name (C from C, a.b.C from a.b.C, a.C.C from a.C), as the users' guide says; a plain name that an #import or #from directive gave is not imported again; nothing else is imported. Every name in the class statement is bound by an import statement of the module. #import and #from directives become statements at the top of the module, each once and in order, wherever they stand.", "quantifier": "every sequence of directives before #extends, every list of import statements with dotted names and aliases, every list of dotted class names", "why_tests_cant": "The combinations of import statements and dotted class names are unbounded, and whether a name is bound depends on all that was imported before.", "anchors": ["Cheetah/Compiler.py:ModuleCompiler.setBaseClass", "Cheetah/Compiler.py:ModuleCompiler.addImportStatement", "Cheetah/Compiler.py:ModuleCompiler.addImportedVarNames", "Cheetah/Parser.py:eatExtends"]}
{"id": "C73", "title": "Error reports show the place of the error", "statement": "Printing a parse error gives the row and column of the position at which it was found (of the last character, if it was found at the end of the template), that line of the template, the up to three lines before and after it in order and under their own numbers, and a caret below the character at that position. A syntax error in the generated Python code is shown likewise, with the surrounding lines of the generated code under their own numbers. A report can be printed for every error in a non-empty template.", "quantifier": "every template text, every position in it, every message and file name; every generated code and line of it", "why_tests_cant": "Positions, line ends and line counts are unbounded, and rows are counted by one notion of line while the lines shown are taken from another.", "anchors": ["Cheetah/Parser.py:ParseError", "Cheetah/Parser.py:ParseError.report", "Cheetah/SourceReader.py:SourceReader.getRowColLine", "Cheetah/SourceReader.py:SourceReader.splitlines", "Cheetah/Template.py:genParserErrorFromPythonException"]}
{"id": "C74", "title": "Completing a compiled class hides nothing, and str() runs the template", "statement": "A template compiled over any base class has all the methods and attributes generated code needs; adding them changes none that the template or its base classes define, and an own __str__ is kept. Otherwise str(t) runs the template's main method, looked up on t, so that templates derived from it can redefine it and what it calls.", "quantifier": "every base class, every sequence of templates each extending the one before, every set of attributes in their bodies", "why_tests_cant": "Class hierarchies and attribute names are unbounded; whether a name is added depends on the whole resolution order.", "anchors": ["Cheetah/Template.py:Template._addCheetahPlumbingCodeToClass", "Cheetah/Template.py:Template._CHEETAH_requiredCheetahMethods", "Cheetah/Compiler.py:ClassCompiler.cleanupState", "Cheetah/Compiler.py:ModuleCompiler.wrapModuleDef"]}
{"id": "C75", "title": "Attributes of a Template subclass are available in a template made from source", "statement": "For a class derived from Template, the instance made by calling it with a source or file has the attributes and methods of that class: attributes can be read under their names, methods are called with the instance, and what the template itself defines takes precedence.", "quantifier": "every subclass of Template, every attribute name and value, every compiled template", "why_tests_cant": "The attribute sets are unbounded and the treatment depends on truth value, name and place of definition.", "anchors": ["Cheetah/Template.py:Template._compile"]}
{"id": "C76", "title": "Comments and documentation never become code", "statement": "Whatever comments a template has, the lines they put into the generated module are Python comments, their documentation becomes the docstrings of the method, class and module the comments name, in the order written, each docstring is one string literal that says what was written, and special variables (name@ value) become assignments of exactly those values, in the order of the names.", "quantifier": "every sequence of comments, every text in them, every indentation", "why_tests_cant": "The texts are unbounded; quotes, backslashes, percent signs and line ends may occur anywhere in them.", "anchors": ["Cheetah/Compiler.py:ModuleCompiler.addComment", "Cheetah/Compiler.py:MethodCompiler.docString", "Cheetah/Compiler.py:ClassCompiler.classDocstring", "Cheetah/Compiler.py:ModuleCompiler.moduleDocstring", "Cheetah/Compiler.py:ModuleCompiler.moduleHeader", "Cheetah/Compiler.py:ModuleCompiler.specialVars"]}
{"id": "C77", "title": "Settings in configuration text mean what they say", "statement": "Settings given as configuration text (the #compiler-settings directive, a configuration file) take effect as written: an integer, None, True, False or python: expression becomes that value and every other text stays the text it is; nothing is evaluated as Python unless it is arithmetic or says python:; the options of the globals section become settings, other sections become tables, all other settings stay, and if anything is wrong no setting changes. Resetting the settings restores the defaults.", "quantifier": "every value text, every list of sections and options, every settings before", "why_tests_cant": "Values are unbounded texts and the number test is a regular expression over them; sections and options may overlap in name in any combination.", "anchors": ["Cheetah/SettingsManager.py:stringIsNumber", "Cheetah/SettingsManager.py:convStringToNum", "Cheetah/SettingsManager.py:_SettingsCollector.readSettingsFromConfigFileObj", "Cheetah/SettingsManager.py:SettingsManager.updateSettingsFromConfigStr", "Cheetah/Compiler.py:ModuleCompiler.setCompilerSettings", "Cheetah/Compiler.py:ModuleCompiler._initializeSettings"]}
{"id": "C78", "title": "A template is imported by its name", "statement": "With the import hooks installed, importing a dotted name whose last part is a template in the directory Python would look in compiles that template, enters one module under the full name, runs its code, and gives the module first in the name; a Python module of the same name there comes first; a relative import in the code of a package looks in that package and enters the module under the package's name; a second import gives the same module and does nothing; a name that is nowhere is a ModuleNotFoundError and leaves no trace; no source file or template is written over, and byte code never says other than its source.", "quantifier": "every search path, file system, table of imported modules, dotted name, relative or absolute import, and whatever imported modules do when run", "why_tests_cant": "Search paths, directories, earlier imports and file times combine without bound, and running a module may import others.", "anchors": ["Cheetah/ImportHooks.py:CheetahDirOwner.getmod", "Cheetah/ImportHooks.py:CheetahDirOwner._compile", "Cheetah/ImportHooks.py:setCacheDir", "Cheetah/ImportManager.py:DirOwner.getmod", "Cheetah/ImportManager.py:PathImportDirector.getmod", "Cheetah/ImportManager.py:ImportManager.importHook", "Cheetah/ImportManager.py:ImportManager.doimport", "Cheetah/ImportManager.py:ImportManager.reloadHook"]}
{"id": "C79", "title": "A forbidden directive has no effect", "statement": "A template that is accepted under disabledDirectives and enabledDirectives uses only permitted directives: whatever the generated code does on account of a directive (or of PSP code) is there because of a directive that is not disabled and, if any are enabled, enabled. Nothing else changes: a template is compiled as without the settings, or refused with an error at a forbidden directive.", "quantifier": "every source, every pair of lists of names and every other setting", "why_tests_cant": "Directives can be reached within lines, after colons, after decorators, in nested blocks and through prefixes of names, in unboundedly many combinations.", "anchors": ["Cheetah/Parser.py:_HighLevelParser._filterDisabledDirectives", "Cheetah/Parser.py:_HighLevelParser.eatDirective", "Cheetah/Parser.py:_HighLevelParser.eatPSP", "Cheetah/Parser.py:_HighLevelParser.parse"]}
{"id": "C80", "title": "Expression filter hooks see the code of a template", "statement": "If a hook of expressionFilterHooks lets some expressions pass and raises an exception for all others, then whatever Python code of a template reaches the compiler was shown to the hook and passed. A hook that returns what it is given changes nothing else: the template is compiled as without it, or refused.", "quantifier": "every source, every hook that returns its argument or raises, and all settings", "why_tests_cant": "Code can stand in every directive, placeholder and nested argument; a safeguard that misses one of unboundedly many places is none.", "anchors": ["Cheetah/Parser.py:_HighLevelParser._applyExpressionFilters", "Cheetah/Parser.py:_HighLevelParser.eatCall", "Cheetah/Parser.py:_HighLevelParser.eatSimpleExprDirective", "Cheetah/Parser.py:_HighLevelParser.eatIf", "Cheetah/Parser.py:_LowLevelParser.getPlaceholder"]}
{"id": "C81", "title": "The names of a compiled class", "statement": "In the class made from a template, a name that the compiler does not use for itself stands for: the value that the last #attr gives it; else, if it is the name of the main method (respond, the name given by #implements, or the one for templates with #extends), the method that writes the template's text; else the method of the #def or #block of that name which ends last; else, for __init__, the constructor that sets the instance up; else nothing but what the base classes have. The class statement names the base classes of #extends, or Template.", "quantifier": "every source of the covered forms with any number of header directives, attributes, definitions nested in each other and repeated names; for the class statement alone every list of finished methods with decorators, arguments and lines, and every list of attributes", "why_tests_cant": "Which definition wins depends on all the directives of a source and on where each of them ends.", "anchors": ["Cheetah/Compiler.py:ClassCompiler.classDef", "Cheetah/Compiler.py:ClassCompiler.attributes", "Cheetah/Compiler.py:ClassCompiler.methodDefs", "Cheetah/Compiler.py:ClassCompiler._setupInitMethod", "Cheetah/Compiler.py:AutoMethodCompiler.methodSignature"]}
{"id": "C82", "title": "Methods, decorators and generators", "statement": "Every #def and #block of a template that compiles is a method of its class, in the order in which they end, the main method among them; a method has exactly the decorators written since the last method was begun, in order, and no other method has them. A method without #yield ends by returning the text that was written; #return and #yield in one method are refused. Of a template with #yield, iterating over the result gives the text written so far at each #yield, each part once.", "quantifier": "every sequence of directives that the compiler accepts; for the pieces every number of texts of any characters", "why_tests_cant": "Definitions nest to any depth and decorators wait across any number of other directives; the state that carries them is updated by every directive.", "anchors": ["Cheetah/Compiler.py:ClassCompiler._spawnMethodCompiler", "Cheetah/Compiler.py:ClassCompiler.addDecorator", "Cheetah/Compiler.py:MethodCompiler.addReturn", "Cheetah/Compiler.py:MethodCompiler.addYield", "Cheetah/Compiler.py:AutoMethodCompiler._addAutoCleanupCode"]}
{"id": "C83", "title": "Parameters and set-up of the methods", "statement": "A method of a compiled template has the parameters of its definition in their order, with at most one more behind them through which a caller can hand on its output: **KWS, or trans=None where the definition names trans itself or is the main method, or nothing where it already takes arbitrary arguments. Before its first output it has a transaction, the function that writes, the search list and the filter. A class method or static method uses nothing of an object for this, makes its own transaction and so always returns its text; cls stands for self in a class method and nothing in a static one. Every name these lines read is a parameter of the method.", "quantifier": "every method, every list of parameters (plain, *, **, with or without defaults), every list of decorators, every body", "why_tests_cant": "The choice depends on the name, the decorators and all parameters together; tests try a handful of signatures.", "anchors": ["Cheetah/Compiler.py:AutoMethodCompiler.cleanupState", "Cheetah/Compiler.py:AutoMethodCompiler._addAutoSetupCode", "Cheetah/Compiler.py:AutoMethodCompiler._addAutoCleanupCode", "Cheetah/Compiler.py:AutoMethodCompiler.methodSignature", "Cheetah/Compiler.py:AutoMethodCompiler._useKWsDictArgForPassingTrans"]}
{"id": "C84", "title": "Python sections", "statement": "In a template of texts and PSP sections, every line of <% code %> is in the generated method exactly as written, in its order, at the level of the blocks around it; <%= e %> writes the filtered value of e; what follows a section that ends in a colon (or in a dollar sign, which is no part of the code) is one level deeper up to <% end %> in any letter case; the texts between are written unchanged. The section ends at the first %> not behind a backslash, and the space around its code does not count.", "quantifier": "every number and nesting of sections, every code with any line ends, every text between them without other tags", "why_tests_cant": "Code and texts are arbitrary, sections nest to any depth, and the three kinds of line end combine freely.", "anchors": ["Cheetah/Parser.py:_HighLevelParser.eatPSP", "Cheetah/Compiler.py:MethodCompiler.addPSP", "Cheetah/Compiler.py:MethodCompiler.commitStrConst"]}
{"id": "C85", "title": "The names of a compiled module", "statement": "In the module a template compiles to, the class name is the template's class, a ##name@ value comment is the module variable __name__, a #set module name is the value of the last such directive wherever it was written, a name brought by the template's #import or #from is what the last of them says, and the compiler's own imports and short names are there where the template does not replace them; the last #shBang is the module's first line; the #encoding of the template is declared to Python.", "quantifier": "every template that compiles, every number and order of imports, module variables and ## variables, every class and method text", "why_tests_cant": "Which binding of a name wins depends on every other binding in the module, and the directives may stand at any depth and in any number.", "anchors": ["Cheetah/Compiler.py:ModuleCompiler.__init__", "Cheetah/Compiler.py:ModuleCompiler.wrapModuleDef", "Cheetah/Compiler.py:ModuleCompiler.moduleHeader", "Cheetah/Compiler.py:ModuleCompiler.addModuleGlobal", "Cheetah/Compiler.py:ModuleCompiler.specialVars", "Cheetah/Compiler.py:ModuleCompiler.moduleFooter"]}
{"id": "C86", "title": "A compiled template as a script", "statement": "Run as a script, a compiled template is printed with the mappings of --env, --pickle FILE and --json FILE in front of its search list, so that a placeholder means what the last option that has its name says, and what the template says if none has it. Names of options may be cut short and a file may follow behind = or as the next argument. With help, or with anything that is not understood, only the usage is printed (status 0 or 2), and for what is not understood nothing is read; if a mapping cannot be read, the template is not printed.", "quantifier": "every command line, every number and order of options in every way of writing them, every environment, files and standard input, every search list of the template", "why_tests_cant": "The command line is an arbitrary list of arguments, and which mapping wins depends on all of the options and on what each of them holds.", "anchors": ["Cheetah/TemplateCmdLineIface.py:CmdLineIface.run", "Cheetah/TemplateCmdLineIface.py:CmdLineIface._processCmdLineArgs", "Cheetah/Template.py:Template.searchList"]}
{"id": "C87", "title": "The object that stands for nothing", "statement": "Whatever a template asks of a RecursiveNull, by dotted names, subscripts and calls in any number and order, is again that object, with either name mapper and without any effect; its text is empty, so the placeholder writes nothing; it is false, equals every false value and differs from every true one.", "quantifier": "every chain of names, subscripts and calls, every argument, every state of the program, both name mappers", "why_tests_cant": "Chains are of any length and mix three kinds of access, and autocalling depends on attributes that this object pretends to have.", "anchors": ["Cheetah/Tools/RecursiveNull.py:RecursiveNull", "Cheetah/NameMapper.py:_valueForName", "Cheetah/NameMapper.py:_isInstanceOrClass", "Cheetah/c/_namemapper.c:PyNamemapper_valueForName"]}
{"id": "C88", "title": "Directories of compiled templates become packages", "statement": "Where the destination of a compiled template needs new directories, each missing directory of its path is made and gets an __init__.py, directories that were there and everything else stay as they were. If the run is stopped at any point and started again, the result is the same; if several workers need the same new directory, all of them succeed.", "quantifier": "every file system, every path, every point at which a run stops, every interleaving of two runs", "why_tests_cant": "A run can stop between any two of its operations, and parallel workers interleave arbitrarily; tests run to the end, one at a time.", "anchors": ["Cheetah/Utils/Misc.py:mkdirsWithPyInitFiles", "Cheetah/CheetahWrapper.py:CheetahWrapper._compileOrFillBundle"]}
{"id": "C89", "title": "A template shows the code of its class", "statement": "generatedClassCode() of a template that was compiled from a source returns the text of the generated class, whole and with nothing else but a line break at each end; where no compilation took place it returns None, like generatedModuleCode().", "quantifier": "every generated module: all headers, docstrings, imports, constants and class texts", "why_tests_cant": "The class is found by searching the text of the module, which contains text of the template and of its comments; tests try templates whose text does not look like the frame of the module.", "anchors": ["Cheetah/Template.py:Template.generatedClassCode", "Cheetah/Template.py:Template.generatedModuleCode", "Cheetah/Compiler.py:ModuleCompiler.wrapModuleDef"]}
{"id": "C90", "title": "Arguments of Template()", "statement": "Template(...) accepts the arguments that its documentation describes and refuses all others with an error that names a wrong one, before anything is compiled. A source and a file together are refused. searchList and namespaces are two names for the same argument: a list, a tuple or a single namespace. If a dictionary among them has a key that a member of the template hides, the key is logged, unless the setting prioritizeSearchListOverSelf is given.", "quantifier": "all combinations of values of the arguments, all sets of member names, all namespaces", "why_tests_cant": "Eight arguments with eight kinds of value each interact in a fixed order of tests; tests give one wrong argument at a time.", "anchors": ["Cheetah/Template.py:Template.__init__", "Cheetah/Template.py:Template._initCheetahInstance"]}
{"id": "C91", "title": "Paths of sources and included files", "statement": "The path of a source file or of an included file is taken from the working directory, or from the root if it starts there, following its parts one after the other; the result is the absolute path of that place, without empty parts, . and .., and stays the same when it is used as a path again in any working directory. Without a path it is the template's own file.", "quantifier": "every path, every working directory", "why_tests_cant": "Paths are arbitrary texts; combinations of .., doubled slashes, backslashes and working directories are unbounded.", "anchors": ["Cheetah/Servlet.py:Servlet.serverSidePath", "Cheetah/Template.py:Template._compile", "Cheetah/Template.py:Template._handleCheetahInclude"]}
{"id": "C92", "title": "Templates loaded for TurboGears are current", "statement": "TurboCheetah.load_template returns, after every history of file changes and loads, the class of the template's current file; a file that could not be compiled can be loaded once it is repaired. Exactly one of the three arguments must be given, and templates must be in a package. With the option cheetah.precompiled the template files are not looked at.", "quantifier": "every history of changes of files and loads of templates", "why_tests_cant": "The loader keeps state between requests; what it returns depends on the whole history of edits, errors and loads, which tests cover only for a few steps.", "anchors": ["Cheetah/Tools/turbocheetah/cheetahsupport.py:TurboCheetah.load_template", "Cheetah/Tools/turbocheetah/cheetahsupport.py:TurboCheetah.load_template_module", "Cheetah/Tools/turbocheetah/cheetahsupport.py:_recompile_template"]}
{"id": "C93", "title": "Templates are loaded from the directory of their path", "statement": "loadTemplateModule('dir/name') and loadTemplateModule('dir/name.suffix') look for the template in the directory dir, however many slashes separate its parts, and in the working directory if there is no dir; a suffix that is given is the only one tried. The module is registered in sys.modules under the name alone; no other entry changes, and none if nothing is found.", "quantifier": "every path, working directory and state of the loaded modules", "why_tests_cant": "Tests load a few relative paths; the claim is about every path, with its leading, repeated and trailing slashes and dots.", "anchors": ["Cheetah/LoadTemplate.py:loadTemplateModule", "Cheetah/LoadTemplate.py:loadTemplateClass", "Cheetah/ImportManager.py:DirOwner.__init__"]}
