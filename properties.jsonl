{"id": "C01", "title": "Plain text passes through the parser unchanged", "statement": "A file that contains no `{{` parses to its own text: one raw piece holding exactly the characters of the file (none if the file is empty), whatever else the text contains.", "quantifier": "every string that does not contain `{{`, every path, every plugin set", "why_tests_cant": "infinitely many texts; the parser scans, backtracks and unescapes, any of which could drop or alter characters", "anchors": ["stuart-core/src/parse/mod.rs:parse_html", "stuart-core/src/parse/parser.rs:extract_until", "stuart-core/src/parse/parser.rs:extract_remaining"]}
{"id": "C02", "title": "Escaped braces are literal", "statement": "`\\{{` in a template produces the literal text `{{` and never starts a tag, and the text around it is unchanged; this holds both before a later tag and in the trailing text.", "quantifier": "every text with escaped openers, any number of escapes, any position", "why_tests_cant": "two different code paths implement escaping (incremental scan, final replace) and must agree on every input", "anchors": ["stuart-core/src/parse/parser.rs:extract_until", "stuart-core/src/parse/parser.rs:extract_remaining"]}
{"id": "C03", "title": "Template round trip", "statement": "Writing out any sequence of text pieces, variable tags and function-call tags as template source, with any amount of whitespace inside the tags, and parsing it gives back exactly that sequence of pieces, variables and functions with their arguments, in order (a text piece directly in front of a tag must not end in `{` or `\\`, which the syntax has no way to write).", "quantifier": "every sequence of pieces; every variable and function name; every argument list; every whitespace layout", "why_tests_cant": "unbounded documents, names, argument lists and whitespace", "anchors": ["stuart-core/src/parse/mod.rs:parse_html", "stuart-core/src/parse/mod.rs:parse_variable", "stuart-core/src/parse/mod.rs:parse_function", "stuart-core/src/parse/function.rs:RawArgument::parse"]}
{"id": "C04", "title": "The template parser never crashes", "statement": "For every file contents the template parser returns either a token list or an error; it does not panic and does not loop.", "quantifier": "every string", "why_tests_cant": "the absence of a panic or a hang on all inputs cannot be sampled", "anchors": ["stuart-core/src/parse/mod.rs:parse_html", "stuart-core/src/parse/mod.rs:parse_function", "stuart-core/src/parse/function.rs:RawArgument::parse"]}
{"id": "C05", "title": "Function-name resolution", "statement": "A call in a template resolves to the built-in of that name if there is one; otherwise to the first plugin function, in plugin order and then function order, whose bare or `plugin::`-qualified name equals the written name; otherwise the parse fails with a nonexistent-function error naming it.", "quantifier": "every name, every plugin list", "why_tests_cant": "every combination of plugin lists and clashing names", "anchors": ["stuart-core/src/parse/mod.rs:parse_function", "stuart-core/src/functions/mod.rs:FunctionParser::can_parse", "stuart-core/src/lib.rs:define_functions"]}
{"id": "C06", "title": "Positional and named arguments", "statement": "Arguments are kept in source order; a positional argument after a named one is always rejected; a quoted argument may contain commas, parentheses and equals signs without being split.", "quantifier": "every argument list", "why_tests_cant": "unbounded lists and string contents", "anchors": ["stuart-core/src/parse/mod.rs:parse_function"]}
{"id": "C07", "title": "Argument literals", "statement": "An argument beginning with `$` is a variable, a double-quoted one is that string, a decimal integer in the signed 32-bit range is that integer and one outside the range is rejected, a built-in function name is an identifier, and anything else is a syntax error.", "quantifier": "every argument text, every 32-bit integer", "why_tests_cant": "2^32 integers and all strings", "anchors": ["stuart-core/src/parse/function.rs:RawArgument::parse", "stuart-core/src/functions/mod.rs:is_ident"]}
{"id": "C08", "title": "Reported line numbers", "statement": "The line recorded for a token is one plus the number of newlines before the last character consumed ahead of the token, so a tag written on one line is reported at that line of the text given to the parser.", "quantifier": "every text and every token in it", "why_tests_cant": "depends on every preceding character including backtracking scans", "anchors": ["stuart-core/src/parse/parser.rs:next", "stuart-core/src/parse/parser.rs:location", "stuart-core/src/parse/mod.rs:parse_html"]}
{"id": "C09", "title": "Markdown errors point at the line in the file", "statement": "A parse error in the body of a markdown file is reported with its line number in that file.", "quantifier": "every markdown file with frontmatter", "why_tests_cant": "depends on every frontmatter length and error position", "anchors": ["stuart-core/src/parse/markdown.rs:parse_markdown"]}
{"id": "C10", "title": "Frontmatter round trip", "statement": "A markdown file made of a `---` line, `key: \"value\"` lines, a `---` line and a body parses to exactly those pairs in order, and to the body text with LF line ends and without one final newline; values may contain colons and quotes.", "quantifier": "every list of pairs and every body", "why_tests_cant": "unbounded lists and texts", "anchors": ["stuart-core/src/parse/markdown.rs:parse_markdown"]}
{"id": "C11", "title": "Malformed frontmatter is rejected", "statement": "If frontmatter is opened and never closed parsing fails with unexpected end of file; if a line inside it is not `key: \"value\"` parsing fails with invalid frontmatter at that line; it is never silently skipped.", "quantifier": "every markdown file that starts with `---`", "why_tests_cant": "every position and shape of the malformed line", "anchors": ["stuart-core/src/parse/markdown.rs:parse_markdown"]}
{"id": "C12", "title": "Line-ending independence of markdown", "statement": "A markdown file with CRLF line ends parses to the same frontmatter and body as the same file with LF line ends.", "quantifier": "every list of lines", "why_tests_cant": "all files", "anchors": ["stuart-core/src/parse/markdown.rs:parse_markdown"]}
{"id": "C13", "title": "Rendering always terminates", "statement": "Rendering any token sequence against any data finishes with an output or an error; loops and rewinding never make it run forever.", "quantifier": "every token sequence, balanced or not, every data set", "why_tests_cant": "non-termination cannot be observed by a finite test", "anchors": ["stuart-core/src/process/mod.rs:process", "stuart-core/src/functions/parsers/for.rs:execute", "stuart-core/src/functions/parsers/if.rs:execute", "stuart-core/src/process/iter.rs:TokenIter"]}
{"id": "C14", "title": "The base scope is never closed", "statement": "While a page is rendered the outermost scope can never be removed by template code, so rendering never fails by running out of scopes; an `end` with nothing open is reported as an error.", "quantifier": "every token sequence, every reachable rendering state", "why_tests_cant": "must hold after every token of every template", "anchors": ["stuart-core/src/functions/parsers/end.rs:execute", "stuart-core/src/process/mod.rs:process"]}
{"id": "C15", "title": "Rendering never crashes", "statement": "Rendering a page returns an output or an error for every template and every data set; it never panics.", "quantifier": "every template, every data set, every set of plugin functions", "why_tests_cant": "absence of panics over all inputs", "anchors": ["stuart-core/src/process/mod.rs:process", "stuart-core/src/parse/markdown.rs:to_value", "stuart-core/src/functions/parsers/if.rs:execute", "stuart/src/plugins/js/mod.rs:JSFunction::name"]}
{"id": "C16", "title": "Blocks mean what they say", "statement": "A properly nested template renders as its block structure reads: a loop renders its body once per item in order with the item bound, a conditional renders exactly the selected branch, a section renders its body in place and records it under its name, everything else renders in sequence.", "quantifier": "every properly nested template, every data set, every nesting depth", "why_tests_cant": "unbounded templates and nesting; this is the semantics of the language", "anchors": ["stuart-core/src/process/mod.rs:process", "stuart-core/src/functions/parsers/for.rs:execute", "stuart-core/src/functions/parsers/if.rs:execute", "stuart-core/src/functions/parsers/ifdefined.rs:execute", "stuart-core/src/functions/parsers/begin.rs:execute", "stuart-core/src/functions/parsers/end.rs:execute"]}
{"id": "C17", "title": "A loop over nothing renders nothing", "statement": "A `for` over an empty array, an empty directory or a skipped-out range contributes no output and the template continues after its `end(for)`.", "quantifier": "every loop body, every surrounding template", "why_tests_cant": "all bodies and contexts", "anchors": ["stuart-core/src/functions/parsers/for.rs:execute"]}
{"id": "C18", "title": "A branch not taken has no effect", "statement": "The branch of a conditional that is not selected contributes no output and changes nothing, whatever blocks it contains.", "quantifier": "every branch body", "why_tests_cant": "all bodies, including nested blocks", "anchors": ["stuart-core/src/functions/parsers/if.rs:execute", "stuart-core/src/functions/parsers/ifdefined.rs:execute"]}
{"id": "C19", "title": "Loop order, skip and limit", "statement": "A `for` visits the items of its source in source order, or stably sorted by the string value of the sort key (missing keys first) when `sortby` is given, reversed when order is descending, then drops the first `skip` items and keeps at most `limit` items.", "quantifier": "every item list, every key, every skip and limit", "why_tests_cant": "all lists, ties and parameter combinations", "anchors": ["stuart-core/src/functions/parsers/for.rs:execute", "stuart-core/src/functions/parsers/for.rs:parse"]}
{"id": "C20", "title": "Variable resolution", "statement": "`$name.a.b` reads the value of `name` from the innermost enclosing scope that defines it and follows the dotted path through object keys and array positions; it renders exactly when that value is a string, and otherwise fails with undefined, null or a type error. An outer definition is never consulted when an inner one exists.", "quantifier": "every scope stack, every value, every path", "why_tests_cant": "unbounded stacks, values and paths", "anchors": ["stuart-core/src/process/mod.rs:process", "stuart-core/src/process/mod.rs:get_variable", "stuart-core/src/process/stack.rs:get_value"]}
{"id": "C21", "title": "Block scoping", "statement": "Rendering a block changes nothing in the enclosing scopes except appending to the immediate output and recording sections: a loop variable or an import made inside a block is not visible after its `end`, and no existing variable ever changes value.", "quantifier": "every token sequence, every state", "why_tests_cant": "every execution path", "anchors": ["stuart-core/src/process/stack.rs:StackFrame", "stuart-core/src/functions/parsers/end.rs:execute", "stuart-core/src/functions/parsers/import.rs:execute"]}
{"id": "C22", "title": "Variables are immutable", "statement": "Importing into a name already defined in the same scope is an error and leaves no effect; importing into a fresh name makes exactly the JSON file's value readable under that name.", "quantifier": "every scope, every name, every file", "why_tests_cant": "all states", "anchors": ["stuart-core/src/functions/parsers/import.rs:execute"]}
{"id": "C23", "title": "Comparison conditionals", "statement": "`ifeq`, `ifne`, `ifgt`, `ifge`, `iflt`, `ifle` select their first branch exactly when the comparison they are named for holds between the two integers; equality and inequality also work on strings; a string and an integer are never equal.", "quantifier": "every pair of integers and strings", "why_tests_cant": "2^64 pairs and all strings", "anchors": ["stuart-core/src/functions/mod.rs:if_parsers", "stuart-core/src/functions/mod.rs:Input", "stuart-core/src/functions/parsers/if.rs:execute"]}
{"id": "C24", "title": "Numbers compare by value", "statement": "A JSON number used in a comparison is compared by its value.", "quantifier": "every JSON number", "why_tests_cant": "the code converts to a 32-bit integer first; all fractional and large values", "anchors": ["stuart-core/src/functions/mod.rs:evaluate_variable"]}
{"id": "C25", "title": "ifdefined", "statement": "`ifdefined($x)` selects its first branch exactly when the variable path resolves to a value other than null.", "quantifier": "every scope stack and path", "why_tests_cant": "all values and paths", "anchors": ["stuart-core/src/functions/parsers/ifdefined.rs:execute"]}
{"id": "C26", "title": "Excerpt", "statement": "`excerpt($x, n)` outputs the leading part of the text with tags removed, never contains a tag delimiter, never exceeds the limit by more than one character plus the ellipsis, and ends in `...` exactly when some of the text was left out.", "quantifier": "every string, every length", "why_tests_cant": "all strings including multi-byte and unbalanced tags", "anchors": ["stuart-core/src/functions/parsers/excerpt.rs:execute"]}
{"id": "C27", "title": "Time to read", "statement": "`timetoread($x)` outputs the decimal number of whole multiples of 200 whitespace-separated words, but at least 1; it is monotone in the text.", "quantifier": "every string", "why_tests_cant": "all strings", "anchors": ["stuart-core/src/functions/parsers/timetoread.rs:execute"]}
{"id": "C28", "title": "Sections reach the root template", "statement": "`insert(\"s\")` outputs exactly the bytes of the first section named `s` that was completed before it; if no such section exists it fails with an undefined-section error naming it. Sections are only ever added, in completion order.", "quantifier": "every page and root template", "why_tests_cant": "all templates", "anchors": ["stuart-core/src/functions/parsers/insert.rs:execute", "stuart-core/src/functions/parsers/end.rs:execute", "stuart-core/src/process/mod.rs:process_html"]}
{"id": "C29", "title": "Only sections of a page reach the output", "statement": "The output of a page depends on the page only through the sections it records: text outside sections, and variables imported by the page, do not reach the root template's output.", "quantifier": "every page, every root template", "why_tests_cant": "all pages", "anchors": ["stuart-core/src/process/mod.rs:process_html", "stuart-core/src/process/mod.rs:process_markdown"]}
{"id": "C30", "title": "Unclosed blocks are errors", "statement": "A page or root template that ends while a section, loop or conditional is still open fails to build; it never yields output.", "quantifier": "every template", "why_tests_cant": "all templates and nesting", "anchors": ["stuart-core/src/process/mod.rs:process_html", "stuart-core/src/functions/parsers/for.rs:execute", "stuart-core/src/functions/parsers/if.rs:execute"]}
{"id": "C31", "title": "Mismatched end is an error", "statement": "`end(x)` or `end(\"x\")` succeeds only if the innermost open block is the one it names; labels never match a different kind of block.", "quantifier": "every label, every open block", "why_tests_cant": "all label strings, including those containing colons", "anchors": ["stuart-core/src/functions/parsers/end.rs:execute"]}
{"id": "C32", "title": "Data access stays inside the content tree", "statement": "`import` and `for` paths can only reach files of the content tree: a path that is absolute or has a parent component never resolves, and any path that resolves names a node of that tree.", "quantifier": "every path string, every tree", "why_tests_cant": "all paths", "anchors": ["stuart-core/src/fs/mod.rs:get_at_path"]}
{"id": "C33", "title": "Text output is valid UTF-8", "statement": "If no plugin emits bytes of its own, rendered output is always valid UTF-8, so converting processed markdown back to text never fails.", "quantifier": "every template and data set", "why_tests_cant": "all strings", "anchors": ["stuart-core/src/process/mod.rs:preprocess_markdown", "stuart-core/src/process/mod.rs:process"]}
{"id": "C34", "title": "Pages do not influence each other", "statement": "The output of a page depends only on the page, its templates, the environment and the JSON and markdown data in the content tree; changing the template text of another HTML page, adding binary files' contents or reordering the build does not change it.", "quantifier": "every site, every pair of pages", "why_tests_cant": "all sites", "anchors": ["stuart-core/src/lib.rs:build_node", "stuart-core/src/process/mod.rs:process"]}
{"id": "C35", "title": "The build preserves the tree", "statement": "A successful build yields a tree with the same directories and, in the same order, one output file per input file, with the same name except that a markdown page `n.md` becomes `n.html`; files other than HTML pages, markdown pages and plugin-handled files keep their bytes.", "quantifier": "every content tree", "why_tests_cant": "all trees", "anchors": ["stuart-core/src/lib.rs:build_node", "stuart-core/src/process/mod.rs:process"]}
{"id": "C36", "title": "Nearest template wins", "statement": "Each page is rendered with the root.html (and md.html) of the closest enclosing directory that has one, or fails with the missing-template error if none does.", "quantifier": "every tree, every page position", "why_tests_cant": "all trees and depths", "anchors": ["stuart-core/src/lib.rs:update_from_children", "stuart-core/src/lib.rs:build_node", "stuart-core/src/process/mod.rs:process_html"]}
{"id": "C37", "title": "A build fails exactly when some page fails", "statement": "The build succeeds iff every page renders, and on failure the error is that of the first failing page in tree order; no partial output is kept.", "quantifier": "every tree", "why_tests_cant": "all trees", "anchors": ["stuart-core/src/lib.rs:build_node", "stuart-core/src/lib.rs:build"]}
{"id": "C38", "title": "Merging static files loses nothing", "statement": "Merging two trees succeeds iff no path names a file in one and anything in the other; on success every path resolves in the result exactly to what it resolved to in one of the inputs, and nothing else is added.", "quantifier": "every pair of trees", "why_tests_cant": "all trees", "anchors": ["stuart-core/src/fs/mod.rs:merge"]}
{"id": "C39", "title": "Merge conflicts are reported with both sources", "statement": "When the merge fails it reports a conflict naming the sources of two nodes at the same path, one from each tree, that are not both directories.", "quantifier": "every pair of trees", "why_tests_cant": "all trees", "anchors": ["stuart-core/src/fs/mod.rs:merge"]}
{"id": "C40", "title": "Saving writes exactly the site", "statement": "After a successful save the output directory contains, for each file of the built tree that is not a template and not an excluded data file, its bytes at its path (page `n.html` at `n/index.html` when extensions are stripped), and nothing else.", "quantifier": "every output tree, every configuration", "why_tests_cant": "all trees and names", "anchors": ["stuart-core/src/fs/mod.rs:save", "stuart-core/src/fs/mod.rs:save_recur"]}
{"id": "C41", "title": "Stale files are removed", "statement": "After a successful save no file from the previous contents of the output directory survives, and nothing outside the output directory changes.", "quantifier": "every previous disk state, every tree", "why_tests_cant": "all disk states", "anchors": ["stuart-core/src/fs/mod.rs:save"]}
{"id": "C42", "title": "No page silently overwrites another", "statement": "Two different files of the site never end up at the same output path without an error.", "quantifier": "every content tree", "why_tests_cant": "all trees; name clashes introduced by renaming", "anchors": ["stuart-core/src/fs/mod.rs:save_recur", "stuart-core/src/process/mod.rs:process_markdown"]}
{"id": "C43", "title": "Static files are copied verbatim", "statement": "Every file in the static directory appears in the output at its own path with its own bytes.", "quantifier": "every static tree and configuration", "why_tests_cant": "all names", "anchors": ["stuart-core/src/fs/mod.rs:save_recur", "stuart/src/build.rs:build"]}
{"id": "C44", "title": "A failed build leaves the old site in place", "statement": "If a build fails before writing (script, parse, render or merge failure) the output directory and metadata are exactly as before.", "quantifier": "every project state, every failing step", "why_tests_cant": "all states and failure points", "anchors": ["stuart/src/build.rs:build"]}
{"id": "C45", "title": "Interrupted save", "statement": "If saving is interrupted or an operation fails at any point, the output directory holds either the complete old site or the complete new one.", "quantifier": "every crash or failure point", "why_tests_cant": "every crash point", "anchors": ["stuart-core/src/fs/mod.rs:save", "stuart/src/build.rs:build"]}
{"id": "C46", "title": "Temporary directory lifecycle", "statement": "Files placed in temp by the pre-build script are in the output of the same build, and temp is gone after a successful build.", "quantifier": "every project state", "why_tests_cant": "all states", "anchors": ["stuart/src/build.rs:build"]}
{"id": "C47", "title": "Rebuilding is idempotent", "statement": "Building twice without changes in between gives the same output directory as building once.", "quantifier": "every project, deterministic scripts that leave inputs alone", "why_tests_cant": "all projects", "anchors": ["stuart/src/build.rs:build", "stuart-core/src/lib.rs:build"]}
{"id": "C48", "title": "Build metadata mirrors the tree", "statement": "The exported metadata has one entry per file and directory of the output tree, in order, with its name, the type, and for markdown and JSON files their frontmatter or value.", "quantifier": "every output tree", "why_tests_cant": "all trees", "anchors": ["stuart-core/src/fs/mod.rs:save_metadata_recur", "stuart-core/src/parse/contents.rs:to_json"]}
{"id": "C49", "title": "Operations before a build", "statement": "Saving, merging or exporting metadata before a build fails with the not-built error, and exporting when disabled fails with the metadata-not-enabled error, without touching the disk.", "quantifier": "every builder state and path", "why_tests_cant": "all states", "anchors": ["stuart-core/src/lib.rs:save", "stuart-core/src/lib.rs:merge_output", "stuart-core/src/lib.rs:save_metadata"]}
{"id": "C50", "title": "Configuration defaults", "statement": "Each setting present in the manifest is used and each absent one takes its documented default, independently of the others.", "quantifier": "every manifest", "why_tests_cant": "all combinations", "anchors": ["stuart/src/config/mod.rs:from", "stuart-core/src/config.rs:default"]}
{"id": "C51", "title": "Build scripts", "statement": "Exactly the files with the recognised names in the scripts directory are run, pre-build before any content is read and post-build after everything is written, each with the documented environment variables; the first failing script stops the build and is reported with its exit code.", "quantifier": "every scripts directory, every script behaviour", "why_tests_cant": "all behaviours", "anchors": ["stuart/src/scripts.rs:from_directory", "stuart/src/scripts.rs:execute", "stuart/src/build.rs:build"]}
{"id": "C52", "title": "The environment variable STUART_ENV", "statement": "In templates `$env.STUART_ENV` is the mode Stuart is running in, and every other `$env.X` is the process environment's value.", "quantifier": "every process environment", "why_tests_cant": "all environments", "anchors": ["stuart-core/src/lib.rs:build"]}
{"id": "C53", "title": "Plugin source fallback", "statement": "The sources of a plugin are tried in order, skipping those not supported on the platform, and the first that loads is used; later ones are not tried; loading fails iff for some plugin none loads; a plugin contributes exactly once.", "quantifier": "every plugin table and every load outcome", "why_tests_cant": "all combinations of failures", "anchors": ["stuart/src/plugins/mod.rs:load"]}
{"id": "C54", "title": "Live-reload injection", "statement": "The development server returns a file's bytes with the reload script inserted immediately before the first `</body>`, and unchanged when there is none; directories are redirected to the address with a slash, and nothing else yields any contents.", "quantifier": "every file contents", "why_tests_cant": "all byte strings", "anchors": ["stuart/src/serve/mod.rs:serve_dir"]}
{"id": "C55", "title": "Dead connections are dropped", "statement": "After a rebuild notification the connection list holds exactly the connections to which the message was sent successfully, each as often as before.", "quantifier": "every connection list and every pattern of failures", "why_tests_cant": "all lists and failure patterns", "anchors": ["stuart/src/serve/mod.rs:build_watcher"]}
{"id": "C56", "title": "The watcher never misses a change", "statement": "In development mode, once changes stop and the watcher is idle, the served site reflects the latest contents.", "quantifier": "every interleaving of edits, events and builds", "why_tests_cant": "all schedules", "anchors": ["stuart/src/serve/mod.rs:build_watcher"]}
{"id": "C57", "title": "The watcher ignores its own output", "statement": "A rebuild by itself never triggers another rebuild.", "quantifier": "every output directory setting and schedule", "why_tests_cant": "all schedules and settings", "anchors": ["stuart/src/serve/mod.rs:build_watcher", "stuart/src/serve/mod.rs:serve"]}
{"id": "C58", "title": "JSON values survive the trip through JavaScript", "statement": "A value passed to a JavaScript plugin and handed back unchanged is the same JSON value.", "quantifier": "every JSON value", "why_tests_cant": "unbounded nesting", "anchors": ["stuart/src/plugins/js/json.rs:json_to_js", "stuart/src/plugins/js/json.rs:js_to_json"]}
{"id": "C59", "title": "STUART.set then STUART.get", "statement": "After a JavaScript plugin sets a variable, reading it in the same scope gives the value set last.", "quantifier": "every scope, name and value sequence", "why_tests_cant": "all histories", "anchors": ["stuart/src/plugins/js/context.rs:set_variable", "stuart-core/src/process/stack.rs:get_variable"]}
{"id": "C60", "title": "clean", "statement": "`clean` removes exactly dist, _build and metadata.json of a project directory and nothing else, and does nothing outside a project.", "quantifier": "every directory state", "why_tests_cant": "all states", "anchors": ["stuart/src/main.rs:clean"]}
{"id": "C61", "title": "Rendering errors point into the template", "statement": "Every error raised while the tokens of a template are processed carries the file, line and column of one of those tokens.", "quantifier": "every token sequence, every state, every data set", "why_tests_cant": "unbounded templates and nested blocks; errors can surface far from the block they belong to", "anchors": ["stuart-core/src/process/mod.rs:process", "stuart-core/src/parse/mod.rs:traceback"]}
{"id": "C62", "title": "Reading the content directory", "statement": "A successful read gives a tree with exactly the files and directories found on disk below the directory: each file once, under its name, with its bytes, its absolute path, and what its contents were read as; a read without parsing marks every file as ignored.", "quantifier": "every disk state, every directory, every set of plugins", "why_tests_cant": "all directory trees, names and contents", "anchors": ["stuart-core/src/fs/mod.rs:create_from_dir", "stuart-core/src/fs/mod.rs:create_from_file"]}
{"id": "C63", "title": "What files are read as", "statement": "A file is read as a template, markdown or JSON according to its last extension, else by the first parser of the first plugin that lists the extension, else left alone; reading succeeds iff the path is a directory other than the file system root, nothing below it is unreadable and every file can be read as its kind.", "quantifier": "every name, every contents, every set of plugins", "why_tests_cant": "all names and plugin sets", "anchors": ["stuart-core/src/fs/mod.rs:create_from_file", "stuart-core/src/plugins/mod.rs:NodeParser"]}
{"id": "C64", "title": "Local plugin files", "statement": "A plugin given by a path to a library file (or a JavaScript file) is loaded from exactly that file: nothing is fetched or compiled, and nothing on disk changes; loading fails iff that file does not load.", "quantifier": "every path, every disk state and every behaviour of git, cargo, curl and the loader", "why_tests_cant": "all paths and environments", "anchors": ["stuart/src/plugins/mod.rs:load_from_source"]}
{"id": "C65", "title": "Cargo plugins are loaded from the library that was compiled", "statement": "When cargo compiles the plugin project successfully, the library it produced for that project is the one that is loaded.", "quantifier": "every package name and project location", "why_tests_cant": "all package names", "anchors": ["stuart/src/plugins/source.rs:build_cargo_project", "stuart/src/plugins/source.rs:get_project_name"]}
{"id": "C66", "title": "Finding the Cargo project of a plugin", "statement": "In a fetched repository a project is found iff some directory in it, however deep, has a Cargo.toml whose package name is the name of the plugin; and what is found is such a directory.", "quantifier": "every directory tree", "why_tests_cant": "unbounded depth and breadth", "anchors": ["stuart/src/plugins/source.rs:find_cargo_project"]}
{"id": "C67", "title": "Calling JavaScript functions", "statement": "A JavaScript function is called with the values of its positional arguments in order; an undefined variable or a bare word among them is an error and nothing is called; the text it returns is appended to the output of the innermost frame, and an exception outputs nothing.", "quantifier": "every argument list, scope and function", "why_tests_cant": "all functions and argument lists", "anchors": ["stuart/src/plugins/js/mod.rs:execute"]}
{"id": "C68", "title": "The template grammar", "statement": "A file parses iff it belongs to the template grammar, and then to exactly the tokens and places the grammar gives: text up to the first opener without a backslash, a tag that is a nonempty variable name or a call of a built-in or plugin function that accepts the arguments, blanks allowed around the tag and around arguments, empty arguments allowed, no blanks around the equals sign of a named argument, no positional argument after a named one.", "quantifier": "every file, every set of plugins, every classification of non-ASCII letters", "why_tests_cant": "an exact characterisation over all inputs, acceptance and rejection", "anchors": ["stuart-core/src/parse/mod.rs:parse_html", "stuart-core/src/parse/mod.rs:parse_function", "stuart-core/src/parse/mod.rs:parse_variable", "stuart-core/src/parse/parser.rs:extract_until", "stuart-core/src/parse/function.rs:parse"]}
{"id": "C69", "title": "Plugins from Git repositories", "statement": "A plugin whose source is a Git repository is kept in _build/plugins under its name: cloned to there when nothing is there yet, pulled otherwise; the plugin is the library that cargo compiles of a project of that name in the repository.", "quantifier": "every disk state, every behaviour of git, cargo and the loader", "why_tests_cant": "all repositories and environments", "anchors": ["stuart/src/plugins/mod.rs:load_from_source", "stuart/src/config/git.rs:clone", "stuart/src/config/git.rs:pull"]}
{"id": "C70", "title": "Downloaded plugins stay in _build", "statement": "Loading plugins changes nothing in the project outside of _build, apart from what git and cargo do; what is downloaded is saved in the directory of the plugin, under the last piece of the address, and loaded from there; a failed download leaves everything as it was.", "quantifier": "every plugin table, disk state and behaviour of the network, git and cargo, including failures of the file system", "why_tests_cant": "all plugin tables and environments", "anchors": ["stuart/src/plugins/mod.rs:load_from_source", "stuart/src/plugins/source.rs:download_plugin"]}
{"id": "C71", "title": "What the watcher does about a change", "statement": "The development server ignores changes in dist and temp, rebuilds for every other change except that of a file called stuart.toml, and keeps running when a build fails; nothing but a build changes the disk.", "quantifier": "every path, project and disk state", "why_tests_cant": "all paths", "anchors": ["stuart/src/serve/mod.rs:build_watcher"]}
{"id": "C72", "title": "New sites", "statement": "stuart new makes the default site and a manifest with its name and the author Git knows, in a new directory, with Git also a list of ignored files; it changes nothing outside that directory, whatever goes wrong; where something exists already it fails and changes nothing.", "quantifier": "every name, disk state, Git configuration and failure of the file system", "why_tests_cant": "all disk states and failure points", "anchors": ["stuart/src/new.rs:new", "stuart/src/new.rs:extract"]}
{"id": "C73", "title": "The manifest of a new site", "statement": "The manifest stuart new writes is TOML that gives the name of the site and its author.", "quantifier": "every site name, user name and address", "why_tests_cant": "all strings", "anchors": ["stuart/src/new.rs:new", "stuart/src/config/mod.rs:load"]}
{"id": "C74", "title": "New sites build", "statement": "After stuart new, stuart build in the new directory succeeds and makes exactly the page, style and picture of the default site, and changes nothing else.", "quantifier": "every name and author without quotes, backslashes and control characters, every disk state, environment and reader of TOML", "why_tests_cant": "tests check one name in one environment", "anchors": ["stuart/src/new.rs:new", "stuart/src/main.rs:build"]}
{"id": "C75", "title": "Parse errors point into the first malformed tag", "statement": "When a template is refused, all tags before some opener are whole, the text after that opener is no well-formed tag, and the error names the given file and the line and column reached within that tag.", "quantifier": "every text, file name and set of plugins", "why_tests_cant": "all texts, all kinds of errors", "anchors": ["stuart-core/src/parse/mod.rs:parse_html", "stuart-core/src/parse/parser.rs:traceback"]}
{"id": "C76", "title": "Error reports quote the line of the error", "statement": "A printed error shows its file and place, quotes the line of the file in which the last character read stands, and puts a mark under this character; for files that cannot be read it names the place only.", "quantifier": "every error, file content and current directory", "why_tests_cant": "all places, line ends and columns", "anchors": ["stuart/src/error.rs:display"]}
{"id": "C77", "title": "Benchmarks only build", "statement": "stuart bench builds the project the given number of times in benchmark mode and stops at the first build that fails; if all succeed, the disk is as after a single build.", "quantifier": "every number of iterations, project and disk state", "why_tests_cant": "all numbers of iterations and all projects", "anchors": ["stuart/src/main.rs:bench", "stuart/src/build.rs:build"]}
{"id": "C78", "title": "The order of directory listings does not matter", "statement": "Two builds of one project on disks that hold the same files leave the same files in the output directory, whatever order the system lists directories in.", "quantifier": "every project and every two disks that look the same below content, static and temp", "why_tests_cant": "a file system usually lists a directory in one order only", "anchors": ["stuart-core/src/fs/mod.rs:create_from_dir", "stuart-core/src/functions/parsers/for.rs:execute", "stuart-core/src/process/mod.rs:process"]}
{"id": "C79", "title": "Plugins for types of files touch only their files", "statement": "A plugin without functions, added at the end of the list, changes only the files whose type it handles: these are read and processed by it and stay in their directory; all other files and all directories of the output are the same as without it. The build fails with it only if it fails without it or the plugin fails on one of its files.", "quantifier": "every project, disk state and plugin", "why_tests_cant": "all combinations of plugins, file names and trees", "anchors": ["stuart-core/src/parse/contents.rs:parse", "stuart-core/src/process/mod.rs:process", "stuart-core/src/plugins/mod.rs:NodeParser"]}
{"id": "C80", "title": "The image optimiser only replaces pictures", "statement": "With the imgopt plugin every PNG file of the content directory is in the output at its own place with the optimised contents, everything else is unchanged, and the build succeeds iff it does without the plugin and all these files can be optimised.", "quantifier": "every project, disk state and optimiser", "why_tests_cant": "all pictures and all projects", "anchors": ["plugins/imgopt/src/lib.rs:PngParser", "plugins/imgopt/src/lib.rs:PngProcessor"]}
{"id": "C81", "title": "The order of plugins does not matter", "statement": "Two builds that differ only in the order in which the plugins were loaded have the same result and the same effects.", "quantifier": "every project, every list of plugins and every permutation of it", "why_tests_cant": "plugins are kept in a hash table, so their order changes from run to run", "anchors": ["stuart/src/config/mod.rs:dependencies", "stuart-core/src/parse/mod.rs:parse_function", "stuart-core/src/parse/contents.rs:parse"]}
{"id": "C82", "title": "Starting the program", "statement": "The program starts iff the manifest path leads, through existing directories, to a file of UTF-8 text that is a valid manifest, and the plugins load; otherwise the error says which of these failed (with line and column counted from one for a syntax error), and nothing has been changed before the plugins are loaded. It then works on the content directory beside the manifest, with the manifest's configuration and the scripts found.", "quantifier": "every working directory, manifest path, disk state, manifest text and behaviour of the TOML library and the plugins", "why_tests_cant": "all paths, disk states and manifests", "anchors": ["stuart/src/build.rs:init", "stuart/src/config/mod.rs:load", "stuart/src/scripts.rs:from_directory"]}
{"id": "C83", "title": "What is in the output directory", "statement": "After a successful build the output directory holds exactly: each page and markdown page of the content rendered with the templates of the nearest directories around it, each other content file as it is or as its plugin makes it, and each static and temporary file as it is; each under its own path, with extensions stripped and templates and data files left out as configured; and the directories for these.", "quantifier": "every project, disk state, configuration and list of plugins with plain names", "why_tests_cant": "all trees of templates, pages and data", "anchors": ["stuart/src/build.rs:build", "stuart-core/src/lib.rs:build", "stuart-core/src/fs/mod.rs:save"]}
{"id": "C84", "title": "Error reports", "statement": "Whatever makes the program fail, a report is printed: it begins with the message of the error, which tells the kind of error and the name concerned; an error in a template is shown with the line of the tag that caused it and a mark under this tag; the outputs of a failed script are shown; and where there is help for an error it is shown.", "quantifier": "every error, template file, tag and current directory", "why_tests_cant": "all templates and all errors they can cause", "anchors": ["stuart/src/error.rs", "stuart-core/src/error.rs"]}
{"id": "C85", "title": "The demonstration plugin", "statement": "With the plugin demo loaded, {{ demo() }} and {{ demo::demo() }} output the plugin's paragraph where they stand and change nothing else; a call with arguments is an error of the template.", "quantifier": "every text around the call, every layout of the call, every scope and list of other plugins that do not have the function", "why_tests_cant": "all calls and states", "anchors": ["plugins/demo/src/function.rs", "plugins/demo/src/lib.rs"]}
{"id": "C86", "title": "What a parse error says", "statement": "A file is rejected exactly when, after whole tags, it has a tag that is not one; the error then tells which of the faults it is (nothing after the braces, no name, no parenthesis, an argument that is none or stands after a named one, an unknown function, a call with the wrong number or kind of arguments, no closing braces, or the end of the file), with the name concerned, and gives the line and column reached when this is noticed. Every file has a reading, or one such fault, or makes the parser panic, and only one of these.", "quantifier": "every input, path and list of plugins", "why_tests_cant": "all files and all the ways in which a tag can be wrong", "anchors": ["stuart-core/src/parse/mod.rs:parse_html", "stuart-core/src/parse/parser.rs", "stuart-core/src/parse/function.rs", "stuart-core/src/functions/parsers"]}
{"id": "C87", "title": "What a build prints", "statement": "A build prints a line for each script it runs, in the order in which they are run, then a line that names the site when the scripts before the build have succeeded, a line about the metadata when the site has been saved and metadata is enabled, and a last line exactly when the build succeeds; if it fails, it has printed the lines up to there and no others. The last line gives the time in all and of three parts, in milliseconds rounded down to tenths, and the parts add up to the whole but for two tenths.", "quantifier": "every project, script behaviour, disk state and duration", "why_tests_cant": "all builds and all the points where they can fail", "anchors": ["stuart/src/build.rs:build", "stuart/src/scripts.rs:execute"]}
{"id": "C88", "title": "Quiet and verbose", "statement": "With --quiet the program writes the reports of errors and nothing else; the option changes neither the exit status nor the files. The same holds of --verbose, but for what is written.", "quantifier": "every command, project, disk state and behaviour of scripts, plugins and libraries", "why_tests_cant": "all commands and failures", "anchors": ["stuart/src/logger/mod.rs", "stuart/src/main.rs:main", "stuart/src/logger/progress.rs"]}
{"id": "C89", "title": "Exit status", "statement": "The exit status is 0 exactly when the command succeeds and 1 exactly when it fails with an error; then the report of this error is the last thing written. Every report begins on a line of its own, and there is a report only if the program fails.", "quantifier": "every command, level, project, disk state and behaviour of scripts, plugins and libraries", "why_tests_cant": "all commands and failures", "anchors": ["stuart/src/main.rs:main", "stuart/src/error.rs:print"]}
{"id": "C90", "title": "The progress bar", "statement": "A benchmark of n builds shows its progress from 0 to n, one by one, and stops early only if a build fails. The bar is fifty wide: the number of signs is the part that is done, rounded up; it is empty at the start and full at the end, and never goes back.", "quantifier": "every number of builds up to 2^46, every progress", "why_tests_cant": "all pairs of numbers, with the rounding of floating point", "anchors": ["stuart/src/logger/progress.rs:print", "stuart/src/main.rs:bench"]}
{"id": "C91", "title": "What loading plugins prints", "statement": "While plugins are loaded, one line tells for each source how it is got (loaded, compiled, cloned, pulled or downloaded, and compiled after it was fetched), one line names each source that is not for this platform, every source that cannot be loaded is reported with the reason, and at the end there is a line with the number of plugins if there are any and all of them could be loaded.", "quantifier": "every list of plugins and sources, disk state and behaviour of Git, Cargo and the network", "why_tests_cant": "all combinations of sources and failures", "anchors": ["stuart/src/plugins/mod.rs:load", "stuart/src/plugins/mod.rs:load_from_source"]}
{"id": "C92", "title": "Why the content cannot be read", "statement": "Reading the content directory fails exactly when it is not there or something in it cannot be read, and the error is that of the first such thing in the order of the listings: a thing that is neither file nor directory, an HTML, markdown or JSON file that is not UTF-8 text, a template or frontmatter with an error of syntax, JSON that is not valid, or a file that its plugin rejects.", "quantifier": "every disk state, directory, list of plugins and JSON library", "why_tests_cant": "all trees and all combinations of faults in them", "anchors": ["stuart-core/src/fs/mod.rs:create_from_dir", "stuart-core/src/fs/mod.rs:create_from_file"]}
{"id": "C93", "title": "When a build succeeds", "statement": "If the file system causes no failures and no post-build script fails, a build succeeds exactly when the pre-build scripts do, the content can be read, its markdown converted and something made of every file, the static and temporary directories are missing or can be read, the content, the static and the temporary files do not want the same place (unless both are directories there), the directory that the output directory is in exists, the output directory is missing or a directory, no file of the site goes where a directory of the site goes, and, if metadata is saved, the metadata file is missing or a file and all metadata of plugins are objects.", "quantifier": "every project, disk state, configuration, list of plugins and behaviour of scripts and libraries, where no two things of one directory of the content get the same name", "why_tests_cant": "all trees and the combinations of all conditions", "anchors": ["stuart/src/build.rs:build", "stuart-core/src/lib.rs:build", "stuart-core/src/lib.rs:merge_output", "stuart-core/src/lib.rs:save", "stuart-core/src/fs/mod.rs:save", "stuart-core/src/fs/mod.rs:merge"]}
{"id": "C94", "title": "`stuart build` from manifest to site", "statement": "For a project without scripts and without plugins for types of files, `stuart build` succeeds exactly when the content can be read and built and the site published (C93), and then every file in the output directory is one that belongs there by the contents of the project directory alone, and there is one wherever one belongs.", "quantifier": "every manifest path, output path, disk state and configuration, and behaviour of libraries", "why_tests_cant": "all projects", "anchors": ["stuart/src/main.rs:build", "stuart/src/build.rs:build", "stuart/src/config/mod.rs:load"]}
{"id": "C95", "title": "A page from its text", "statement": "After a successful `stuart build` of a project without plugins for types of files, the file published for a page holds what the texts of its source file and of its templates mean: the page is rendered for its sections and then the root template around it with these; the body of a markdown page is rendered and converted first, and the markdown template stands for the page, with the frontmatter, the body and its HTML as `self`. If one of the texts fails to render nothing is made of the page.", "quantifier": "every project, page, template text, nesting of blocks, frontmatter and environment, where no other file goes to the place of the page", "why_tests_cant": "all combinations of texts of pages and templates, and all data they can refer to", "anchors": ["stuart/src/main.rs:build", "stuart-core/src/lib.rs:build", "stuart-core/src/process/mod.rs:process", "stuart-core/src/parse/mod.rs:parse_html", "stuart-core/src/parse/markdown.rs:parse_markdown"]}
{"id": "C96", "title": "What the development server shows", "statement": "`stuart dev` starts exactly when the project can be loaded and the first build does not panic, and serves the directory into which it builds. It keeps the settings with which it started, whatever happens on the disk. After a change that it rebuilds for, and a build that succeeds, a browser that asks for a page gets what the texts of the page and its templates, as they were then, mean in the mode `development`, with the reload script before the first `</body>` and the type of HTML. When something in the content cannot be made everything is served as it was, and no browser is told to reload.", "quantifier": "every project, every history of changes, events and connections, every page and request for it", "why_tests_cant": "all histories, and all combinations of texts", "anchors": ["stuart/src/serve/mod.rs:serve", "stuart/src/serve/mod.rs:build_watcher", "stuart/src/serve/mod.rs:serve_dir", "stuart/src/build.rs:build"]}
{"id": "C97", "title": "Sound texts and room for everything", "statement": "If every file of the content can be read by its type (HTML and markdown as nested templates, JSON as JSON), every markdown body and every page can be rendered with the templates in force for it, and by the names alone no two things of content, static and temporary files want the same place, and the output directory has a place, then the build succeeds and every page is published with what its texts mean. So it is for `stuart build` and for every change the development server is told of: the browser then gets the page.", "quantifier": "every project without plugins for types of files, disk state, configuration and environment; every history of the development server", "why_tests_cant": "all trees of files, texts and names", "anchors": ["stuart/src/main.rs:build", "stuart/src/build.rs:build", "stuart/src/serve/mod.rs:build_watcher", "stuart-core/src/lib.rs:build", "stuart-core/src/lib.rs:save", "stuart-core/src/fs/mod.rs:create_from_dir"]}
{"id": "C98", "title": "What a site of simple texts shows", "statement": "Let the texts of the content be simple: words without tag openers, variables `{{ $v }}`, sections `{{ begin(\"l\") }}...{{ end(\"l\") }}`, nested at will, and places `{{ insert(\"l\") }}`. Then what a page shows is found by filling in: the page yields its sections, each place of the root template in force gets the first section of its name, each variable the string it stands for; for a markdown page the body is filled in and converted first and is there for the markdown template as `self`. If there is room for everything, the build succeeds if and only if every page shows something, and every page is published as exactly that string. So it is with the development server.", "quantifier": "every project of simple texts without plugins for types of files and without scripts; every disk, configuration, environment, text, nesting, label and name", "why_tests_cant": "all texts and trees of files; a test fixes one site", "anchors": ["stuart-core/src/parse/mod.rs:parse_html", "stuart-core/src/process/mod.rs:process", "stuart-core/src/functions/parsers/begin.rs:execute", "stuart-core/src/functions/parsers/insert.rs:execute", "stuart-core/src/functions/parsers/end.rs:execute", "stuart-core/src/lib.rs:build", "stuart-core/src/lib.rs:save", "stuart/src/main.rs:build"]}
{"id": "C99", "title": "What loops and imports find", "statement": "In a page or template, `import($v, path)` finds exactly the data files of the content directory: it succeeds if and only if the path, followed from the content directory and never out of it, leads to a file of type `json` with JSON in it, and the innermost scope has no variable of the name yet; the variable is then the file's value. A loop over a `.json` path visits the elements of the array in such a file. A loop over a directory visits the markdown files in it, and nothing else of it, in the order in which the directory lists them, each as an object of its frontmatter with the text of its body as `markdown` and what that is rendered and converted to as `content`. If there is nothing of the kind, nothing is found. In the bodies of markdown pages data is found in the same way, but a loop over a directory with a markdown file is a crash.", "quantifier": "every disk, content directory, path, scope, loop, frontmatter and body", "why_tests_cant": "all trees of files and all paths into them", "anchors": ["stuart-core/src/functions/parsers/import.rs:execute", "stuart-core/src/functions/parsers/for.rs:execute", "stuart-core/src/fs/mod.rs:get_at_path", "stuart-core/src/fs/mod.rs:create_from_dir", "stuart-core/src/lib.rs:preprocess_markdown_node", "stuart-core/src/parse/markdown.rs:to_value"]}
{"id": "C100", "title": "The terminal after each command", "statement": "At the normal level: `stuart new` that succeeds leaves the one line `     Created new Stuart website `name`` on the standard error stream, and `stuart clean` nothing; if they fail there is the report alone. `stuart build` that succeeds leaves what is said about plugins, a line for each script before the build, the line with name and directory, one for the metadata if they are exported, one for each script after it, and the last one with the times. `stuart bench` that succeeds leaves what is said about plugins, the progress bar drawn from 0 to n, an empty line for its end and one more, and the four means; the builds themselves are silent. `stuart dev` leaves what is said about plugins, the address with an empty line, and the lines of the first build; if that fails, the lines up to there, an empty line and the report, and it goes on; an error before ends it with the status 1. For a change in `dist` or `temp` it writes nothing, for one of a file called `stuart.toml` an empty line and the request to restart, and for any other an empty line, the path, and the lines of the build, with an empty line and the report if it fails.", "quantifier": "every project, argument, state of the disk, number of builds, event, and time taken", "why_tests_cant": "all texts for all projects and all numbers of builds; tests do not look at the terminal at all", "anchors": ["stuart/src/main.rs:main", "stuart/src/main.rs:bench", "stuart/src/new.rs:new", "stuart/src/serve/mod.rs:serve", "stuart/src/serve/mod.rs:build_watcher", "stuart/src/serve/mod.rs:error_handler", "stuart/src/logger/mod.rs:log", "stuart/src/logger/progress.rs:next"]}
{"id": "C101", "title": "The figures of a benchmark", "statement": "A benchmark that succeeds ends with four lines that give the mean time of the builds: altogether, for the content, for the scripts and for saving. Each figure is in milliseconds with two digits after the point and is the mean of the times of the builds (cut to tenths of milliseconds, as each build shows them) rounded to these digits: at most 0.00505 ms off, in spite of the floating point sums. It lies between the shortest and the longest time, is that time if all are the same, and the figures of the parts make up that of the whole up to 0.22 ms.", "quantifier": "every project, every number of builds below 2^40 that together take less than 2^46 microseconds, all times", "why_tests_cant": "all numbers of builds and all times; error of floating point sums", "anchors": ["stuart/src/main.rs:bench", "stuart/src/build.rs:build"]}
{"id": "C102", "title": "JavaScript plugins are what their files export", "statement": "A JavaScript file whose module exports a name and a list of functions, each with a name and code, is loaded as the plugin of this name (whatever the manifest calls it) with functions of these names in this order and no types of files. A call in a template under the name of a function, bare or after the name of the plugin and `::`, that is no built-in and belongs to no plugin before, runs the code listed with that name on the positional arguments. A file is refused exactly when it is not UTF-8, is not a module that can be run, exports nothing, has no functions, or has an empty place in the list; and for the first of these reasons. Every part of what is exported is checked.", "quantifier": "every source text and engine, every exported value, every list of functions, every call and every list of other plugins", "why_tests_cant": "all exported values; V8 cannot be exercised over all of them, and the errors in question never arise", "anchors": ["stuart/src/plugins/js/mod.rs:load_js_plugin", "stuart/src/plugins/js/mod.rs:JSFunctionParser", "stuart/src/plugins/js/mod.rs:execute"]}
{"id": "C103", "title": "Where a project lies does not matter", "statement": "Let the same project lie in two directories, on the same disk or on different ones: the same files, directories and orders of entries below the two directories, anything around them. `stuart build` run in the one and in the other, with the same relative output directory below the project, leaves the same files, directories and orders below them and has the same result; an error is the same error, at the same place, but that paths in it begin with the one directory instead of the other. This holds for builds that fail at any point, and whatever goes wrong with the disk on the way. The same holds for `stuart clean`. Scripts and plugins for types of files have to do the same in both places; the image optimiser does.", "quantifier": "every project, two directories (neither the root), all states of the disk and mishaps, every output path of names", "why_tests_cant": "all projects at all pairs of places, with all failures on the way", "anchors": ["stuart/src/main.rs:build", "stuart/src/main.rs:clean", "stuart/src/build.rs:init", "stuart/src/build.rs:build", "stuart-core/src/fs/mod.rs:create_from_dir", "stuart-core/src/fs/mod.rs:save", "stuart-core/src/fs/mod.rs:merge", "plugins/imgopt/src/lib.rs:process"]}
{"id": "C104", "title": "The mode and the environment show only where a text asks", "statement": "If the characters `$env` are nowhere in the html and markdown files of the content, then `stuart build` leaves the same disk and has the same result (the same error, if it fails) in whatever environment it is run, and so do one build of `stuart bench` (the same disk and result as `build`) and the first build of `stuart dev` (the same disk): the environment variables and the mode (production, benchmark or development) show nowhere but in `$env`, and in what scripts are told. Functions of plugins must not use the variable, scripts must not depend on the mode or write `$env` into the content.", "quantifier": "every project and state of the disk (with any mishaps), every two environments, the three modes", "why_tests_cant": "all projects, in all environments and modes", "anchors": ["stuart-core/src/lib.rs:build", "stuart-core/src/process/mod.rs:get_variable", "stuart/src/main.rs:build", "stuart/src/main.rs:bench", "stuart/src/serve/mod.rs:serve", "stuart/src/build.rs:init"]}
{"id": "C105", "title": "A tree in memory renders as the site on disk", "statement": "Let `$env` be nowhere in the html and markdown files of the content, and the project build. `Stuart::new_from_node`, given the tree read from the content directory, then makes a builder with the same tree, its markdown rendered, that the build works on, and processing any file of it with the templates in force there (`Node::process`) gives exactly the file that the build puts in that place, whatever the mode and the environment of the build: what is tested in memory is what is published. Making the builder never reports an error: it crashes exactly when some markdown body does not render, where a build reports the error. Building with it reads the disk anew, and the result is that of a new builder for the directory, whatever tree it was made of.", "quantifier": "every content directory, configuration, mode and environment, every file of it; plugin functions that do not use the variable", "why_tests_cant": "all content trees; the tests of the repository compare a dozen pages processed in memory with texts and never with a build", "anchors": ["stuart-core/src/lib.rs:new_from_node", "stuart-core/src/lib.rs:build", "stuart-core/src/lib.rs:preprocess_markdown_node", "stuart-core/src/process/mod.rs:process", "stuart-core/src/tests/mod.rs:run"]}
{"id": "C106", "title": "A page depends on nothing but what it refers to", "statement": "Let a project be built twice, with changes to the content in between, and let both builds succeed. If a page is the same file both times, has the same root template (and markdown template) in force, and the content is the same at every place that the page, these templates, or markdown found at such places lead to by an `import` or a loop, then the same bytes are published for the page, if nothing else gets to its place. In particular a change at one place of the content (a file or directory added, removed or replaced, none of it named `root.html` or `md.html`) to which nothing else refers, nor to a directory above it, changes no other page.", "quantifier": "every pair of projects with the same manifest, without scripts and without plugins for types of files; every page whose place is its own, all texts", "why_tests_cant": "all changes to all projects; the tests never change a project", "anchors": ["stuart-core/src/lib.rs:build", "stuart-core/src/process/mod.rs:process", "stuart-core/src/process/mod.rs:process_html", "stuart-core/src/process/mod.rs:process_markdown", "stuart-core/src/fs/mod.rs:get_at_path", "stuart-core/src/functions/parsers/for.rs:execute", "stuart-core/src/functions/parsers/import.rs:execute", "stuart/src/build.rs:build"]}
{"id": "C107", "title": "The names of variables do not matter", "statement": "Let two projects have the same files and directories, and let the files be the same but in the content, where in each html file (page or template) the variables may have other names, given one to one for that file, the names `self` and `env` kept; keys after a point, file names, sections, the text around and the order of all of these are the same, while the tags themselves may be spaced or broken into lines differently. `stuart build` then ends in the same way in both, whatever goes wrong with the disk on the way, and leaves the same everywhere outside the content: every page has the same bytes. An error in rendering is in the same file, of the same kind, about the same variable by its other name. A markdown file must have the same source text, because `$self.markdown` can show it.", "quantifier": "every pair of projects that are so related, with the same manifest, without scripts, whose files can be parsed and in which the functions of plugins are not used; all renamings, all states of the disk and mishaps", "why_tests_cant": "all projects and all ways to rename their variables; the tests never compare two templates", "anchors": ["stuart-core/src/process/mod.rs:process_html", "stuart-core/src/process/mod.rs:get_variable", "stuart-core/src/process/stack.rs:get_variable", "stuart-core/src/functions/parsers/for.rs:execute", "stuart-core/src/functions/parsers/import.rs:execute", "stuart-core/src/functions/parsers/ifdefined.rs:execute", "stuart-core/src/functions/parsers/if.rs:execute", "stuart-core/src/functions/parsers/excerpt.rs:execute", "stuart-core/src/functions/parsers/timetoread.rs:execute", "stuart-core/src/functions/parsers/dateformat.rs:execute", "stuart-core/src/lib.rs:build", "stuart/src/main.rs:build"]}
{"id": "C108", "title": "A page that renders at all renders as it reads", "statement": "If a page of properly nested text (every block closed by its own `end`, at most one `else` in each conditional) is rendered without an error, the result is what the text means: each loop gives its body once for each item, in order, each conditional the branch whose condition holds, each section its content where the root template asks for it. Something else is never published: what the interpreter gets wrong (loops over nothing, untaken branches with blocks in them) ends in an error. So it is for markdown pages, for every page published by `stuart build`, and for every page that the development server shows.", "quantifier": "every properly nested template and all contents of variables and files; proved for templates with no loop within a loop; otherwise false", "why_tests_cant": "all templates and all data; that a wrong rendering is always noticed cannot be sampled", "anchors": ["stuart-core/src/process/mod.rs:process_html", "stuart-core/src/functions/parsers/for.rs:execute", "stuart-core/src/functions/parsers/if.rs:execute", "stuart-core/src/functions/parsers/ifdefined.rs:execute", "stuart-core/src/functions/parsers/else.rs:execute", "stuart-core/src/functions/parsers/end.rs:execute", "stuart-core/src/functions/parsers/begin.rs:execute", "stuart-core/src/lib.rs:build", "stuart/src/main.rs:build", "stuart/src/serve/mod.rs:build_watcher"]}
{"id": "C109", "title": "Of properly nested texts exactly the sound ones can be built", "statement": "Let the texts of the content be properly nested, and let there be room for everything and no mishap. `stuart build` then succeeds if and only if the texts are sound: they can be read, each page has a root template in force (a markdown page a markdown template too), no loop is over nothing, no untaken branch holds a block, and every text has a meaning (each variable, file, and section it asks for is there).", "quantifier": "every project without scripts and without plugins for types of files; every disk, configuration, environment and text; proved for templates with no loop within a loop; otherwise false", "why_tests_cant": "all trees of files and texts; both directions of an equivalence", "anchors": ["stuart/src/main.rs:build", "stuart/src/build.rs:build", "stuart-core/src/lib.rs:build", "stuart-core/src/process/mod.rs:process", "stuart-core/src/fs/mod.rs:create_from_dir"]}
{"id": "C110", "title": "A text is properly nested in one way at most", "statement": "Whether a text is properly nested can be told by reading its tags once from left to right: an opening tag opens a block, an `end` must be for the innermost open block, an `else` for the innermost one, a conditional that has none yet, and at the end nothing is open. Whoever divides a text into blocks so that every block is closed by its own `end` arrives at the same blocks. So a text has one meaning at most, a page (with the templates in force) means one thing at most, and where no loop is within a loop a successful `stuart build` publishes that and nothing else.", "quantifier": "all token lists, texts and templates; all contents; every pair of divisions into blocks", "why_tests_cant": "all texts and all divisions of them into blocks", "anchors": ["stuart-core/src/parse/mod.rs:parse_html", "stuart-core/src/functions/parsers/end.rs:execute", "stuart-core/src/functions/parsers/else.rs:execute", "stuart-core/src/functions/parsers/begin.rs:execute", "stuart/src/main.rs:build"]}
{"id": "C111", "title": "The repository's test cases pass, and what that says", "statement": "The eleven test cases of the core library pass. In general a test case passes if and only if its input and the base can be read and merged and the page made of it is, but for newlines and carriage returns, the expected file. A test case cannot replace what the base has: if both have something at the same path and these are not both directories, the test case fails whatever its input and expectation are.", "quantifier": "the eleven shipped test cases; every disk with test cases, every name of one, every place of a clash", "why_tests_cant": "a statement about the verdict of the tests themselves: no test says what its passing means", "anchors": ["stuart-core/src/tests/mod.rs:Testcase::new", "stuart-core/src/tests/mod.rs:run", "stuart-core/src/tests/mod.rs:load_base", "stuart-core/src/fs/mod.rs:merge", "stuart-core/src/process/mod.rs:process"]}
{"id": "C112", "title": "A field that no template mentions does not matter", "statement": "Let two projects have the same files and directories, and let the files be the same but in the content, where the data files may differ in fields of certain names, at any depth (there or not, with any value, at any place), and the markdown files in frontmatter of those names. No page, template or markdown body mentions one of those names as a key in the path of a variable, be it shown, compared, asked for by `ifdefined`, looped over or sorted by. If neither data files nor metadata are published, `stuart build` then ends in the same way in both, with the same error if there is one, whatever goes wrong with the disk on the way, and leaves the same everywhere outside the content: every page has the same bytes. Fields cannot be seen but by their name.", "quantifier": "every pair of projects that are so related, with the same manifest, without scripts, whose files can be parsed and in which the functions of plugins are not used; all sets of names, all values, all states of the disk and mishaps", "why_tests_cant": "all projects and all changes of their data; the tests never change a field that is not used", "anchors": ["stuart-core/src/process/stack.rs:get_value", "stuart-core/src/process/stack.rs:get_variable", "stuart-core/src/process/mod.rs:process_html", "stuart-core/src/process/mod.rs:get_variable", "stuart-core/src/parse/markdown.rs:to_value", "stuart-core/src/functions/parsers/for.rs:execute", "stuart-core/src/functions/parsers/import.rs:execute", "stuart-core/src/functions/parsers/ifdefined.rs:execute", "stuart-core/src/functions/parsers/if.rs:execute", "stuart-core/src/lib.rs:build", "stuart/src/main.rs:build"]}
{"id": "C113", "title": "Templates see of data exactly what the definition says", "statement": "Call two JSON values alike if they are the same text, are numbers with the same integral part (within the bounds of 32-bit integers), are lists that are alike element by element, are both null, or are each an object or a truth value, with parts that are alike under every key without a point (a part that is missing being null). If the value of `$self` of a markdown file is replaced by one that is alike, every template and every root template without plugin functions gives the same page, or the same error; and if two values are not alike, there is a template that does not. If data files and frontmatter of a project are replaced by ones that are alike, `stuart build` ends in the same way and leaves the same everywhere but in the content. So true and false, 2 and 2.5, null and missing, the order of fields, repeated fields and fields with a point in their name can never make a difference, and everything else can.", "quantifier": "all values, all templates without plugin functions, all root templates, all projects so related (without scripts, data files and metadata not published), all mishaps", "why_tests_cant": "a statement about all templates at once, and that the template that tells two values apart exists; a test is one template", "anchors": ["stuart-core/src/process/stack.rs:get_value", "stuart-core/src/process/mod.rs:get_variable", "stuart-core/src/process/mod.rs:process", "stuart-core/src/functions/mod.rs:evaluate_variable", "stuart-core/src/functions/parsers/for.rs:execute", "stuart-core/src/functions/parsers/ifdefined.rs:execute"]}
{"id": "C114", "title": "The program's own test passes, and what that says", "statement": "The test `basic` of the command line program passes wherever the project is, from whatever working directory, with whatever libraries for JSON, markdown and dates, and leaves the disk as it was. In general a test passes if and only if the build reports success and there is a text `dist/index.html` that meets the check; it ends the whole test process if and only if the build reports an error. Every test leaves everything but `dist` and `metadata.json` as the build left it, and afterwards these are as they were before.", "quantifier": "every machine, working directory, place of the project, picture and reader of manifests; every project, check, and all mishaps", "why_tests_cant": "a statement about the verdict of the test itself, and about what it leaves behind", "anchors": ["stuart/src/test.rs:test", "stuart/src/test.rs:full_build", "stuart/src/test.rs:cleanup", "stuart/src/main.rs:build"]}
{"id": "C115", "title": "JavaScript plugins remember things, each for itself", "statement": "Functions of JavaScript plugins can keep a state from one call to the next. The states of plugins are apart: what a site is, and what building it does to the plugins whose functions it calls, depends on the states of these plugins only, and those of all others are left as they were; pages that call functions of some plugins are what they would be without the pages that call functions of others. The test `js_isolation` shows `0 1 2 0 1 3`; calls follow one another through loops, conditionals and templates. If no function makes use of a state, a build with states is a build without. A site that is built again by the same process (development server, benchmark) is what a new process makes of it.", "quantifier": "all sites, all functions and states, all sets of plugins", "why_tests_cant": "a statement about all functions that plugins may have, and all states they may be in; a test has two plugins with one function", "anchors": ["stuart/src/plugins/js/mod.rs:load_js_plugin", "stuart/src/plugins/js/mod.rs:execute", "stuart/src/test.rs:js_isolation", "stuart/src/serve/mod.rs:build_watcher", "stuart/src/main.rs:bench"]}
{"id": "C116", "title": "What functions of plugins do has no influence on how files are read", "statement": "With two lists of plugins of the same names, whose functions have the same names, in the same order, and take the same calls, every file is read alike: as the same texts, variables and functions at the same places, with the functions of the one list exactly where the other has its own, or with the same error at the same place. The same holds of markdown files (with the same frontmatter) and of whole directories of content. So whatever is changed in the bodies of the functions of a JavaScript plugin, the same tags call the same functions with the same arguments.", "quantifier": "every text, path and directory, all pairs of lists of plugins, every relation between functions", "why_tests_cant": "a statement about pairs of plugin lists that quantifies over everything functions may do", "anchors": ["stuart-core/src/parse/mod.rs:parse_html", "stuart-core/src/parse/mod.rs:parse_function", "stuart-core/src/parse/markdown.rs:parse_markdown", "stuart-core/src/fs/mod.rs:create_from_file", "stuart/src/plugins/js/mod.rs:parse"]}
