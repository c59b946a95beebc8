{
 "claims": [
  {
   "property": "C01",
   "status": "proved",
   "theorems": [
    "Stuart.C01_plain_text"
   ],
   "note": ""
  },
  {
   "property": "C02",
   "status": "partial",
   "theorems": [
    "Stuart.C02_escaped_text_partial",
    "Stuart.C02_escaped_around_tag_partial",
    "Stuart.C02_counterexample"
   ],
   "note": "The claim is false when a third brace follows the escape: `\\{{{ $x }}` starts a tag (C02_counterexample). Proved for all other texts, in both code paths."
  },
  {
   "property": "C03",
   "status": "proved",
   "theorems": [
    "Stuart.C03_round_trip"
   ],
   "note": ""
  },
  {
   "property": "C04",
   "status": "partial",
   "theorems": [
    "Stuart.C04_exact",
    "Stuart.C04_no_crash_partial",
    "Stuart.C04_total_partial",
    "Stuart.C04_counterexample",
    "Stuart.C04_counterexample_named"
   ],
   "note": "The claim is false: a file ending in a lone quote as an argument panics (parse/function.rs:52). Proved: exactly which files panic (C04_exact), and no input loops. Plugin-supplied parsers are assumed not to panic."
  },
  {
   "property": "C05",
   "status": "proved",
   "theorems": [
    "Stuart.C05_builtin_first",
    "Stuart.C05_builtin_shadows",
    "Stuart.C05_first_plugin",
    "Stuart.C05_unknown",
    "Stuart.C05_letters"
   ],
   "note": ""
  },
  {
   "property": "C06",
   "status": "proved",
   "theorems": [
    "Stuart.C06_argument_order",
    "Stuart.C06_positional_after_named"
   ],
   "note": ""
  },
  {
   "property": "C07",
   "status": "partial",
   "theorems": [
    "Stuart.C07_argument_literals_partial",
    "Stuart.C07_counterexample"
   ],
   "note": "Complete except for the text `\"`, which panics instead of being a syntax error."
  },
  {
   "property": "C08",
   "status": "proved",
   "theorems": [
    "Stuart.C08_lines",
    "Stuart.C08_tag_line"
   ],
   "note": ""
  },
  {
   "property": "C09",
   "status": "partial",
   "theorems": [
    "Stuart.C09_error_lines_partial",
    "Stuart.C09_offset",
    "Stuart.C09_counterexample"
   ],
   "note": "The claim is false for files with frontmatter: lines are counted from the body (C09_counterexample, C09_offset). Proved for files without frontmatter."
  },
  {
   "property": "C10",
   "status": "proved",
   "theorems": [
    "Stuart.C10_frontmatter_round_trip"
   ],
   "note": ""
  },
  {
   "property": "C100",
   "status": "proved",
   "theorems": [
    "Stuart.C100_new",
    "Stuart.C100_build",
    "Stuart.C100_bench",
    "Stuart.C100_dev",
    "Stuart.C100_dev_fails",
    "Stuart.C100_change"
   ],
   "note": "What is said about plugins is the subject of C91, the text of reports of C84, the times in the last line of C87_times, the bar of C90. The means of a benchmark are the subject of C101. Colours are left out."
  },
  {
   "property": "C101",
   "status": "partial",
   "theorems": [
    "Stuart.C101_figures_partial",
    "Stuart.C101_counterexample_none",
    "Stuart.C101_between",
    "Stuart.C101_steady",
    "Stuart.C101_true",
    "Stuart.C101_parts"
   ],
   "note": "With no builds (`-i 0`) the figures are `NaN` (C101_counterexample_none). The bounds on the number of builds and on the time keep the numbers in the range that the model of floating point covers."
  },
  {
   "property": "C102",
   "status": "partial",
   "theorems": [
    "Stuart.C102_loads",
    "Stuart.C102_distinct",
    "Stuart.C102_refused",
    "Stuart.C102_source",
    "Stuart.C102_call",
    "Stuart.C102_counterexample_nameless",
    "Stuart.C102_counterexample_bare",
    "Stuart.C102_counterexample_twice",
    "Stuart.C102_counterexample_listlike",
    "Stuart.C102_counterexample_list"
   ],
   "note": "The last sentence is false: a missing name becomes `undefined`, what is no function panics when called, a list that is no list counts as empty, and of two functions with one name the first is found but the second is run. C102_distinct, C102_source and C102_call are for distinct names. The engine (V8) is a parameter; exported objects have no getters."
  },
  {
   "property": "C103",
   "status": "proved",
   "theorems": [
    "Stuart.C103_build",
    "Stuart.C103_clean",
    "Stuart.C103_plugins",
    "Stuart.C103_paths"
   ],
   "note": "Scripts are assumed to do the same at both places (given the variables for each), and the plugin loader to fetch nothing: what they do is outside the model. Both assumptions are met by examples; a script that records its path does not meet them."
  },
  {
   "property": "C104",
   "status": "proved",
   "theorems": [
    "Stuart.C104_build",
    "Stuart.C104_bench",
    "Stuart.C104_dev",
    "Stuart.C104_plugins"
   ],
   "note": "Scripts and functions of plugins are assumed not to look at the mode or at `env`, and the plugin loader to fetch nothing; a script itself inherits the environment, which is outside the model. A text with `$env` in a word such as `$environment` is not covered."
  },
  {
   "property": "C105",
   "status": "proved",
   "theorems": [
    "Stuart.C105_same",
    "Stuart.C105_crash",
    "Stuart.C105_from_disk",
    "Stuart.C105_env"
   ],
   "note": "The variable `env` is not there in memory, which is why texts must not ask for it: C105_env shows a page that builds but cannot be processed in memory."
  },
  {
   "property": "C106",
   "status": "proved",
   "theorems": [
    "Stuart.C106_page",
    "Stuart.C106_elsewhere",
    "Stuart.C106_site",
    "Stuart.C106_published",
    "Stuart.C106_change"
   ],
   "note": "C106_page holds with plugins for types of files too, for each file that can be made something of. Functions of plugins see variables only, as in the whole model; one that looks into the content by itself is outside it. For names that do not lead out of the output directory (C41). A loop refers to the whole of its directory, though it only visits the markdown files in it."
  },
  {
   "property": "C107",
   "status": "proved",
   "theorems": [
    "Stuart.C107_run",
    "Stuart.C107_page",
    "Stuart.C107_build",
    "Stuart.C107_pages",
    "Stuart.C107_counterexample_source"
   ],
   "note": "Functions of plugins are left out: one may look up a variable by its name. An `end` that names nothing has no colon in its label, so that a loop's frame is not mistaken for another's by name. C107_counterexample_source shows that the source text of markdown bodies has to stay."
  },
  {
   "property": "C108",
   "status": "partial",
   "theorems": [
    "Stuart.C108_exact_partial",
    "Stuart.C108_renders_partial",
    "Stuart.C108_html_partial",
    "Stuart.C108_markdown_partial",
    "Stuart.C108_page_partial",
    "Stuart.C108_build_partial",
    "Stuart.C108_published_partial",
    "Stuart.C108_dev_partial",
    "Stuart.C108_counterexample_empty",
    "Stuart.C108_counterexample_skipped"
   ],
   "note": "False of loops within loops: with a loop over nothing (C108_counterexample_empty) and with a conditional whose untaken branch holds a block (C108_counterexample_skipped) the code can render something else without an error. Proved for templates with no loop within a loop. Compared with C16 and C95 the condition that no loop is empty and no untaken branch holds a block (`Tame`) is gone: it is a consequence of rendering at all. `C108_exact_partial` says which of these templates render: exactly the tame ones with a meaning."
  },
  {
   "property": "C109",
   "status": "partial",
   "theorems": [
    "Stuart.C109_sound_partial",
    "Stuart.C109_iff_partial",
    "Stuart.C109_builds_partial"
   ],
   "note": "The full claim (for all properly nested texts) is false with the same templates as for C108. Frontmatter in the usual writing (C10), no mishaps of the file system, no scripts, no plugins for types of files."
  },
  {
   "property": "C11",
   "status": "proved",
   "theorems": [
    "Stuart.C11_unclosed",
    "Stuart.C11_malformed",
    "Stuart.C11_nothing_skipped"
   ],
   "note": ""
  },
  {
   "property": "C110",
   "status": "proved",
   "theorems": [
    "Stuart.C110_unique",
    "Stuart.C110_nests",
    "Stuart.C110_single",
    "Stuart.C110_text",
    "Stuart.C110_means",
    "Stuart.C110_published"
   ],
   "note": "C110_means is for a stem with one page (an html and a markdown file of one name clash, C42). It makes the meanings in C95, C97 and C108 unique."
  },
  {
   "property": "C111",
   "status": "proved",
   "theorems": [
    "Stuart.C111_all",
    "Stuart.C111_means",
    "Stuart.C111_clash"
   ],
   "note": "The libraries (JSON, markdown, dates) are tables for the texts that occur in C111_all, and arbitrary in the other two."
  },
  {
   "property": "C112",
   "status": "proved",
   "theorems": [
    "Stuart.C112_run",
    "Stuart.C112_page",
    "Stuart.C112_build"
   ],
   "note": "Functions of plugins are left out: one may look at whole values. Data files and metadata must not be published, as they would show the fields."
  },
  {
   "property": "C113",
   "status": "proved",
   "theorems": [
    "Stuart.C113_page",
    "Stuart.C113_tells",
    "Stuart.C113_iff",
    "Stuart.C113_build"
   ],
   "note": "Functions of plugins are left out: one may look at whole values. C113_tells needs that no list has more than 2^64 elements, which no computer can hold. In C113_build data files and metadata must not be published."
  },
  {
   "property": "C114",
   "status": "partial",
   "theorems": [
    "Stuart.C114_basic",
    "Stuart.C114_means",
    "Stuart.C114_exits",
    "Stuart.C114_frame",
    "Stuart.C114_lost",
    "Stuart.C114_counterexample_metadata"
   ],
   "note": "That every test leaves everything as it was is false: C114_counterexample_metadata. Of the tests of JavaScript plugins (feature `js`) the pages are C115_isolation and C115_js."
  },
  {
   "property": "C115",
   "status": "partial",
   "theorems": [
    "Stuart.C115_own",
    "Stuart.C115_frame",
    "Stuart.C115_site",
    "Stuart.C115_build",
    "Stuart.C115_forgets",
    "Stuart.C115_build_forgets",
    "Stuart.C115_isolation",
    "Stuart.C115_order",
    "Stuart.C115_call",
    "Stuart.C115_call_unreached",
    "Stuart.C115_call_state",
    "Stuart.C115_call_leaves",
    "Stuart.C115_js",
    "Stuart.C115_session",
    "Stuart.C115_session_next",
    "Stuart.C115_session_case",
    "Stuart.C115_session_partial",
    "Stuart.C115_again_partial",
    "Stuart.C115_rebuild_partial",
    "Stuart.C115_hidden_partial",
    "Stuart.C115_counterexample_again",
    "Stuart.C115_counterexample_rebuild"
   ],
   "note": "The last sentence is false: contexts are made once per process, so counters go on counting in the next build (C115_counterexample_again, C115_counterexample_rebuild). Proved for functions that make no use of a state, or whose state does not show. Which function a token calls is given with the token. The build is that of the tree of files as read."
  },
  {
   "property": "C116",
   "status": "proved",
   "theorems": [
    "Stuart.C116_html",
    "Stuart.C116_markdown",
    "Stuart.C116_tree",
    "Stuart.C116_js",
    "Stuart.C116_case"
   ],
   "note": "Complete. What is read; that a call shows the same in a given state is C115_call."
  },
  {
   "property": "C12",
   "status": "proved",
   "theorems": [
    "Stuart.C12_line_endings"
   ],
   "note": ""
  },
  {
   "property": "C13",
   "status": "proved",
   "theorems": [
    "Stuart.C13_terminates",
    "Stuart.C13_bounds_irrelevant"
   ],
   "note": ""
  },
  {
   "property": "C14",
   "status": "proved",
   "theorems": [
    "Stuart.C14_base_kept",
    "Stuart.C14_never_out_of_scopes",
    "Stuart.C14_end_without_begin"
   ],
   "note": ""
  },
  {
   "property": "C15",
   "status": "partial",
   "theorems": [
    "Stuart.C15_no_panic_partial",
    "Stuart.C15_build_partial",
    "Stuart.C15_counterexample_plugin",
    "Stuart.C15_counterexample_markdown"
   ],
   "note": "The claim is false: a JavaScript plugin function inside a conditional panics, and so does a loop over a markdown directory inside a markdown body. Proved for whole builds when plugin functions have names and do not panic, and no markdown body loops over a directory."
  },
  {
   "property": "C16",
   "status": "partial",
   "theorems": [
    "Stuart.C16_blocks_partial"
   ],
   "note": "The run of any template equals the meaning of its block structure (tree semantics, with a meaning of its own for every token) for templates whose loops visit at least one item and whose untaken branches contain no blocks; outside that the claim is false (see C17, C18). Where no loop is within a loop, the condition can be dropped for runs that succeed (C108)."
  },
  {
   "property": "C17",
   "status": "partial",
   "theorems": [
    "Stuart.C17_empty_loop_partial",
    "Stuart.C17_exact",
    "Stuart.C17_counterexample",
    "Stuart.C17_counterexample_silent"
   ],
   "note": "The claim is false: the body of an empty loop is run once outside the loop and its end(for) then fails, or closes an enclosing loop. Proved: an empty loop outside loops never adds output, because rendering fails; and in full (C17_exact): a loop over nothing is as if its for were not there."
  },
  {
   "property": "C18",
   "status": "partial",
   "theorems": [
    "Stuart.C18_not_taken_partial",
    "Stuart.C18_no_else_partial",
    "Stuart.C18_first_end",
    "Stuart.C18_first_end_other",
    "Stuart.C18_first_else",
    "Stuart.C18_no_end",
    "Stuart.C18_counterexample",
    "Stuart.C18_counterexample_output"
   ],
   "note": "The claim is false for an untaken branch that contains a block. Proved for every branch without blocks; and what happens for every sequence of tokens: the first end or else ends the branch, whatever blocks it opens. That the deviations are always noticed where no loop is within a loop is C108."
  },
  {
   "property": "C19",
   "status": "proved",
   "theorems": [
    "Stuart.C19_loop_order",
    "Stuart.C19_sorting"
   ],
   "note": ""
  },
  {
   "property": "C20",
   "status": "proved",
   "theorems": [
    "Stuart.C20_variable",
    "Stuart.C20_coverage"
   ],
   "note": ""
  },
  {
   "property": "C21",
   "status": "proved",
   "theorems": [
    "Stuart.C21_block",
    "Stuart.C21_step",
    "Stuart.C21_unchanged"
   ],
   "note": ""
  },
  {
   "property": "C22",
   "status": "proved",
   "theorems": [
    "Stuart.C22_import"
   ],
   "note": ""
  },
  {
   "property": "C23",
   "status": "partial",
   "theorems": [
    "Stuart.C23_integers_partial",
    "Stuart.C23_ifle_strict",
    "Stuart.C23_texts",
    "Stuart.C23_mixed",
    "Stuart.C23_order",
    "Stuart.C23_no_operand",
    "Stuart.C23_counterexample"
   ],
   "note": "ifle is strict, contrary to the claim. Proved for all other comparisons, and what ifle does."
  },
  {
   "property": "C24",
   "status": "partial",
   "theorems": [
    "Stuart.C24_numbers_partial",
    "Stuart.C24_exact",
    "Stuart.C24_counts",
    "Stuart.C24_counterexample",
    "Stuart.C24_counterexample_range"
   ],
   "note": "The claim is false for fractions and for numbers outside the 32-bit range, which are truncated or saturated. Proved for 32-bit integers, and what happens for every number (C24_exact)."
  },
  {
   "property": "C25",
   "status": "proved",
   "theorems": [
    "Stuart.C25_ifdefined"
   ],
   "note": ""
  },
  {
   "property": "C26",
   "status": "partial",
   "theorems": [
    "Stuart.C26_excerpt_partial",
    "Stuart.C26_exact",
    "Stuart.C26_not_a_string",
    "Stuart.C26_counterexample_bytes",
    "Stuart.C26_counterexample_tag"
   ],
   "note": "One half of one clause is false: the ellipsis can appear although nothing was left out (non-ASCII text, or only tags left). Everything else is proved, and that clause for ASCII text with 'some of the source was left unread'. C26_exact gives the output of excerpt exactly, for every text and length."
  },
  {
   "property": "C27",
   "status": "proved",
   "theorems": [
    "Stuart.C27_time_to_read",
    "Stuart.C27_monotone"
   ],
   "note": ""
  },
  {
   "property": "C28",
   "status": "proved",
   "theorems": [
    "Stuart.C28_insert",
    "Stuart.C28_sections_grow"
   ],
   "note": ""
  },
  {
   "property": "C29",
   "status": "proved",
   "theorems": [
    "Stuart.C29_page",
    "Stuart.C29_only_sections"
   ],
   "note": ""
  },
  {
   "property": "C30",
   "status": "partial",
   "theorems": [
    "Stuart.C30_page_partial",
    "Stuart.C30_left_open",
    "Stuart.C30_root",
    "Stuart.C30_counterexample_root"
   ],
   "note": "Proved for pages and markdown templates. False for root templates: an open section there silently drops the output before it (what the page is then: C30_root)."
  },
  {
   "property": "C31",
   "status": "proved",
   "theorems": [
    "Stuart.C31_end",
    "Stuart.C31_open_scopes",
    "Stuart.C31_decimal"
   ],
   "note": ""
  },
  {
   "property": "C32",
   "status": "proved",
   "theorems": [
    "Stuart.C32_paths",
    "Stuart.C32_coverage",
    "Stuart.C32_import",
    "Stuart.C32_for"
   ],
   "note": ""
  },
  {
   "property": "C33",
   "status": "proved",
   "theorems": [
    "Stuart.C33_text",
    "Stuart.C33_markdown"
   ],
   "note": ""
  },
  {
   "property": "C34",
   "status": "proved",
   "theorems": [
    "Stuart.C34_independent"
   ],
   "note": ""
  },
  {
   "property": "C35",
   "status": "proved",
   "theorems": [
    "Stuart.C35_same_tree"
   ],
   "note": ""
  },
  {
   "property": "C36",
   "status": "proved",
   "theorems": [
    "Stuart.C36_nearest",
    "Stuart.C36_missing"
   ],
   "note": ""
  },
  {
   "property": "C37",
   "status": "proved",
   "theorems": [
    "Stuart.C37_succeeds",
    "Stuart.C37_first_error",
    "Stuart.C37_order"
   ],
   "note": ""
  },
  {
   "property": "C38",
   "status": "proved",
   "theorems": [
    "Stuart.C38_union",
    "Stuart.C38_succeeds"
   ],
   "note": ""
  },
  {
   "property": "C39",
   "status": "proved",
   "theorems": [
    "Stuart.C39_conflict",
    "Stuart.C39_keeps",
    "Stuart.C39_leaves_partial_merge"
   ],
   "note": ""
  },
  {
   "property": "C40",
   "status": "partial",
   "theorems": [
    "Stuart.C40_saved_partial",
    "Stuart.C40_exact_partial",
    "Stuart.C40_succeeds_partial"
   ],
   "note": "Proved for trees with plain names and no page named '...html', which would be written outside the output directory (C41_counterexample_dots). Several files with one destination leave one of them (C42)."
  },
  {
   "property": "C41",
   "status": "partial",
   "theorems": [
    "Stuart.C41_outside_partial",
    "Stuart.C41_stale_partial",
    "Stuart.C41_counterexample_dots"
   ],
   "note": "False for a page named '...html' with stripped extensions; proved for all other names."
  },
  {
   "property": "C42",
   "status": "partial",
   "theorems": [
    "Stuart.C42_distinct_partial",
    "Stuart.C42_last_partial",
    "Stuart.C42_counterexample_md",
    "Stuart.C42_counterexample_index"
   ],
   "note": "False: 'x.md' beside 'x.html', and 'x.html' beside 'x/index.html', silently overwrite one another. Proved that nothing is overwritten otherwise, and that of several files for one place exactly the last one, in the order of the site, is found (C42_last_partial)."
  },
  {
   "property": "C43",
   "status": "partial",
   "theorems": [
    "Stuart.C43_verbatim_partial",
    "Stuart.C43_counterexample_dropped",
    "Stuart.C43_counterexample_overwritten"
   ],
   "note": "False for static files named root.html, md.html or *.json (dropped), and for about/index.html beside a page about.html (one overwrites the other). Proved for all others."
  },
  {
   "property": "C44",
   "status": "proved",
   "theorems": [
    "Stuart.C44_untouched",
    "Stuart.C44_kept"
   ],
   "note": "Failing early covers every failure except failures to write, of post-build scripts, and the panic while exporting metadata."
  },
  {
   "property": "C45",
   "status": "partial",
   "theorems": [
    "Stuart.C45_recovery_partial",
    "Stuart.C45_first_step_partial",
    "Stuart.C45_counterexample"
   ],
   "note": "Saving is not atomic. Proved that a later successful save always recovers, and that a first step without damage leaves the old site."
  },
  {
   "property": "C46",
   "status": "partial",
   "theorems": [
    "Stuart.C46_files_partial",
    "Stuart.C46_gone_partial",
    "Stuart.C46_build",
    "Stuart.C46_counterexample"
   ],
   "note": "The temporary directory stays if its removal fails, because that failure is ignored. Files are in the output unless their name is not published or a page goes to the same place. Proved otherwise."
  },
  {
   "property": "C47",
   "status": "partial",
   "theorems": [
    "Stuart.C47_same_partial",
    "Stuart.C47_again_partial",
    "Stuart.C47_counterexample"
   ],
   "note": "False when the output directory contains the inputs. Proved for output directories apart from the inputs; the version with scripts assumes that both builds succeed and find the same inputs."
  },
  {
   "property": "C48",
   "status": "proved",
   "theorems": [
    "Stuart.C48_mirror",
    "Stuart.C48_exported",
    "Stuart.C48_values",
    "Stuart.C48_written",
    "Stuart.C48_plugin_panic"
   ],
   "note": "Plugin metadata that are not an object make the export panic (C48_plugin_panic); C48_exported shows nothing else does."
  },
  {
   "property": "C49",
   "status": "proved",
   "theorems": [
    "Stuart.C49_not_built",
    "Stuart.C49_not_enabled",
    "Stuart.C49_failed_build"
   ],
   "note": ""
  },
  {
   "property": "C50",
   "status": "proved",
   "theorems": [
    "Stuart.C50_config",
    "Stuart.C50_used"
   ],
   "note": ""
  },
  {
   "property": "C51",
   "status": "proved",
   "theorems": [
    "Stuart.C51_found",
    "Stuart.C51_order",
    "Stuart.C51_failure",
    "Stuart.C51_stops",
    "Stuart.C51_context",
    "Stuart.C51_paths",
    "Stuart.C51_out"
   ],
   "note": ""
  },
  {
   "property": "C52",
   "status": "partial",
   "theorems": [
    "Stuart.C52_env_partial",
    "Stuart.C52_exact",
    "Stuart.C52_counterexample"
   ],
   "note": "False when the process environment already has STUART_ENV: the inherited value wins. Proved otherwise, and what is shown for every environment (C52_exact)."
  },
  {
   "property": "C53",
   "status": "partial",
   "theorems": [
    "Stuart.C53_loads",
    "Stuart.C53_fails",
    "Stuart.C53_panics",
    "Stuart.C53_why",
    "Stuart.C53_workspace",
    "Stuart.C53_count",
    "Stuart.C53_counterexample"
   ],
   "note": "One deviation: a source that is a Cargo workspace (Cargo.toml without a package name) panics instead of failing over (C53_counterexample). Proved: exactly when loading succeeds, fails, and panics, and that this is the only way to panic."
  },
  {
   "property": "C54",
   "status": "proved",
   "theorems": [
    "Stuart.C54_inject",
    "Stuart.C54_cases",
    "Stuart.C54_type",
    "Stuart.C54_other",
    "Stuart.C54_address"
   ],
   "note": "Which file a URL names and its MIME type come from the HTTP library (parameters)."
  },
  {
   "property": "C55",
   "status": "proved",
   "theorems": [
    "Stuart.C55_notify",
    "Stuart.C55_when"
   ],
   "note": ""
  },
  {
   "property": "C56",
   "status": "partial",
   "theorems": [
    "Stuart.C56_caught_up_partial",
    "Stuart.C56_counterexample"
   ],
   "note": "False: a change made while a build runs is lost when its event comes during the debounce window after the build. Proved when nothing changes between the moment a build reads the project and the moment the queue is emptied."
  },
  {
   "property": "C57",
   "status": "partial",
   "theorems": [
    "Stuart.C57_builds_partial",
    "Stuart.C57_own",
    "Stuart.C57_counterexample"
   ],
   "note": "False with an output directory other than dist, or with metadata enabled: every rebuild triggers the next. Proved for output in dist without metadata."
  },
  {
   "property": "C58",
   "status": "partial",
   "theorems": [
    "Stuart.C58_exact",
    "Stuart.C58_contents_partial",
    "Stuart.C58_counterexample",
    "Stuart.C58_panic"
   ],
   "note": "False: order of numeric keys, repeated keys and __proto__. Exactly characterised (C58_exact), and the contents are always kept."
  },
  {
   "property": "C59",
   "status": "partial",
   "theorems": [
    "Stuart.C59_set_get_partial",
    "Stuart.C59_seen_partial",
    "Stuart.C59_counterexample",
    "Stuart.C59_counterexample_dot",
    "Stuart.C59_undefined"
   ],
   "note": "False: setting a variable twice keeps the first value; a name with a dot is not found. Proved for the first setting of a name without dots."
  },
  {
   "property": "C60",
   "status": "proved",
   "theorems": [
    "Stuart.C60_not_a_project",
    "Stuart.C60_exact",
    "Stuart.C60_nothing_else",
    "Stuart.C60_succeeds"
   ],
   "note": ""
  },
  {
   "property": "C61",
   "status": "proved",
   "theorems": [
    "Stuart.C61_error_positions"
   ],
   "note": ""
  },
  {
   "property": "C62",
   "status": "proved",
   "theorems": [
    "Stuart.C62_mirror"
   ],
   "note": ""
  },
  {
   "property": "C63",
   "status": "proved",
   "theorems": [
    "Stuart.C63_succeeds",
    "Stuart.C63_one_way"
   ],
   "note": ""
  },
  {
   "property": "C64",
   "status": "proved",
   "theorems": [
    "Stuart.C64_local",
    "Stuart.C64_library",
    "Stuart.C64_script"
   ],
   "note": ""
  },
  {
   "property": "C65",
   "status": "partial",
   "theorems": [
    "Stuart.C65_cargo_partial",
    "Stuart.C65_exact",
    "Stuart.C65_counterexample"
   ],
   "note": "False for package names with a hyphen: cargo writes an underscore. Proved for the others."
  },
  {
   "property": "C66",
   "status": "proved",
   "theorems": [
    "Stuart.C66_found"
   ],
   "note": ""
  },
  {
   "property": "C67",
   "status": "proved",
   "theorems": [
    "Stuart.C67_call",
    "Stuart.C67_not_called",
    "Stuart.C67_output",
    "Stuart.C67_effect",
    "Stuart.C67_counterexample"
   ],
   "note": "What is registered as a function but is not one panics when called (C67_counterexample)."
  },
  {
   "property": "C68",
   "status": "proved",
   "theorems": [
    "Stuart.C68_exact",
    "Stuart.C68_unambiguous",
    "Stuart.C68_values",
    "Stuart.C68_calls",
    "Stuart.C68_white"
   ],
   "note": ""
  },
  {
   "property": "C69",
   "status": "proved",
   "theorems": [
    "Stuart.C69_first",
    "Stuart.C69_later",
    "Stuart.C69_loads",
    "Stuart.C69_clones"
   ],
   "note": "Plugin names are assumed to be names of files (see C70)."
  },
  {
   "property": "C70",
   "status": "partial",
   "theorems": [
    "Stuart.C70_saved",
    "Stuart.C70_loads",
    "Stuart.C70_none",
    "Stuart.C70_frame_partial",
    "Stuart.C70_counterexample_name",
    "Stuart.C70_counterexample_status"
   ],
   "note": "False: a plugin name with .. in it leads out of _build, and the body of an error response is saved as the plugin. Proved for names that are names of files."
  },
  {
   "property": "C71",
   "status": "proved",
   "theorems": [
    "Stuart.C71_reacts",
    "Stuart.C71_event"
   ],
   "note": "An event without a path, or with one outside the project, makes the server panic (C71_event)."
  },
  {
   "property": "C72",
   "status": "partial",
   "theorems": [
    "Stuart.C72_created",
    "Stuart.C72_git",
    "Stuart.C72_refused",
    "Stuart.C72_frame",
    "Stuart.C72_texts",
    "Stuart.C72_absolute"
   ],
   "note": "False for absolute paths with Git: the repository is made elsewhere (C72_absolute). Proved for names of directories."
  },
  {
   "property": "C73",
   "status": "partial",
   "theorems": [
    "Stuart.C73_exact",
    "Stuart.C73_manifest_partial",
    "Stuart.C73_quote",
    "Stuart.C73_injected"
   ],
   "note": "False: names and authors are not escaped. Exactly characterised: it holds iff neither has quotes, backslashes or control characters."
  },
  {
   "property": "C74",
   "status": "proved",
   "theorems": [
    "Stuart.C74_builds"
   ],
   "note": "For names and authors with an ordinary manifest (C73). The reader of TOML is a parameter; the plugin loader is the modelled one."
  },
  {
   "property": "C75",
   "status": "proved",
   "theorems": [
    "Stuart.C75_place"
   ],
   "note": ""
  },
  {
   "property": "C76",
   "status": "partial",
   "theorems": [
    "Stuart.C76_quotes",
    "Stuart.C76_template",
    "Stuart.C76_path",
    "Stuart.C76_unreadable",
    "Stuart.C76_line_zero",
    "Stuart.C76_json",
    "Stuart.C76_frontmatter"
   ],
   "note": "False for errors without a place (invalid JSON, missing root template): a program with overflow checks panics in place of showing them. False below frontmatter: another line is quoted. Proved for every error with a place in the text of its file."
  },
  {
   "property": "C77",
   "status": "partial",
   "theorems": [
    "Stuart.C77_bench",
    "Stuart.C77_once_partial",
    "Stuart.C77_counterexample_temp"
   ],
   "note": "The sequence of builds is proved for every project (C77_bench). That the disk ends as after one build is false with temporary files: the second build does not find them any more (C77_counterexample_temp). Proved for projects without scripts and temporary files, and without mishaps; scripts may do anything."
  },
  {
   "property": "C78",
   "status": "partial",
   "theorems": [
    "Stuart.C78_tree_partial",
    "Stuart.C78_site_partial",
    "Stuart.C78_counterexample",
    "Stuart.C78_counterexample_clash",
    "Stuart.C78_counterexample_state"
   ],
   "note": "False: loops over directories without a sorting key show the listing order, and of two files that go to the same place the later wins. Proved when every loop over a directory sorts by a key that tells the files apart and no two files go to the same place; the metadata file is left out. Functions of plugins that keep a state also show the order (C78_counterexample_state)."
  },
  {
   "property": "C79",
   "status": "proved",
   "theorems": [
    "Stuart.C79_frame",
    "Stuart.C79_processed",
    "Stuart.C79_succeeds",
    "Stuart.C79_fails"
   ],
   "note": "For the plugin at the end of the list, without functions. A plugin that chooses a new name for its file may take the place of another file when the site is saved (C42)."
  },
  {
   "property": "C80",
   "status": "proved",
   "theorems": [
    "Stuart.C80_optimised",
    "Stuart.C80_rest",
    "Stuart.C80_succeeds",
    "Stuart.C80_error"
   ],
   "note": "The optimiser itself is a parameter. Assumes that no other plugin is for PNG files."
  },
  {
   "property": "C81",
   "status": "partial",
   "theorems": [
    "Stuart.C81_order_partial",
    "Stuart.C81_counterexample",
    "Stuart.C81_counterexample_type"
   ],
   "note": "False when two plugins have functions of the same name or handle the same type of files: the first in the list is taken, and the list comes from a hash table. Proved otherwise."
  },
  {
   "property": "C82",
   "status": "proved",
   "theorems": [
    "Stuart.C82_start",
    "Stuart.C82_one_way",
    "Stuart.C82_succeeds"
   ],
   "note": "The TOML library is a parameter. No symbolic links."
  },
  {
   "property": "C83",
   "status": "partial",
   "theorems": [
    "Stuart.C83_site_partial",
    "Stuart.C83_build_partial"
   ],
   "note": "What is read keeps the order of the listings (`Spec.Content`). For names that do not lead out of the output directory (see C41), and outside the place of the metadata file. Where several files belong in one place one of them is found (see C42)."
  },
  {
   "property": "C84",
   "status": "partial",
   "theorems": [
    "Stuart.C84_reported",
    "Stuart.C84_lines",
    "Stuart.C84_render",
    "Stuart.C84_page",
    "Stuart.C84_parse_message",
    "Stuart.C84_process_message",
    "Stuart.C84_parse_texts",
    "Stuart.C84_process_texts",
    "Stuart.C84_program_texts",
    "Stuart.C84_help_texts",
    "Stuart.C84_conflict",
    "Stuart.C84_script",
    "Stuart.C84_counterexample_help"
   ],
   "note": "False in one clause: file system errors and the missing metadata setting have help, which is never shown. A program built with overflow checks panics on errors without a place (C76_line_zero). Everything else is proved; the errors of template syntax are shown as in C76_template."
  },
  {
   "property": "C85",
   "status": "proved",
   "theorems": [
    "Stuart.C85_call",
    "Stuart.C85_arguments"
   ],
   "note": "For the plugin at the end of the list."
  },
  {
   "property": "C86",
   "status": "proved",
   "theorems": [
    "Stuart.C86_exact",
    "Stuart.C86_once",
    "Stuart.C86_complete"
   ],
   "note": "The errors of plugins' own parsers are taken from the plugins. The panic is that of C04_exact."
  },
  {
   "property": "C87",
   "status": "proved",
   "theorems": [
    "Stuart.C87_lines",
    "Stuart.C87_steps",
    "Stuart.C87_times"
   ],
   "note": "Durations are parameters. Numbers are shown as whole tenths, which is how numbers with up to 15 digits are shown."
  },
  {
   "property": "C88",
   "status": "partial",
   "theorems": [
    "Stuart.C88_quiet_partial",
    "Stuart.C88_level",
    "Stuart.C88_verbose",
    "Stuart.C88_counterexample_bench",
    "Stuart.C88_counterexample_dev"
   ],
   "note": "False for two commands: benchmarks show the progress bar and the development server empty lines with --quiet. Proved for build, new and clean. --verbose changes nothing at all (C88_verbose)."
  },
  {
   "property": "C89",
   "status": "partial",
   "theorems": [
    "Stuart.C89_status",
    "Stuart.C89_error",
    "Stuart.C89_line_partial",
    "Stuart.C89_counterexample_bench",
    "Stuart.C89_counterexample_source"
   ],
   "note": "False in two clauses: in a benchmark the report follows the progress bar on the same line, and a source of a plugin that fails is reported although the next one is used. C89_line_partial is for build, new and clean. The message of a panic is left out."
  },
  {
   "property": "C90",
   "status": "partial",
   "theorems": [
    "Stuart.C90_bar",
    "Stuart.C90_text",
    "Stuart.C90_progress",
    "Stuart.C90_ten",
    "Stuart.C90_length",
    "Stuart.C90_counterexample"
   ],
   "note": "C90_length gives the number of signs exactly, by way of the two roundings. The number of signs is the part that is done rounded up, or one more where that is a whole number: 7 of 50 shows 8 signs. So it is at most one too long. Everything else is proved, for totals up to 2^46."
  },
  {
   "property": "C91",
   "status": "partial",
   "theorems": [
    "Stuart.C91_reports",
    "Stuart.C91_no_reports",
    "Stuart.C91_skipped",
    "Stuart.C91_skipped_all",
    "Stuart.C91_texts",
    "Stuart.C91_file",
    "Stuart.C91_cargo",
    "Stuart.C91_git",
    "Stuart.C91_download",
    "Stuart.C91_nothing",
    "Stuart.C91_plugins",
    "Stuart.C91_stops",
    "Stuart.C91_loaded",
    "Stuart.C91_unloaded",
    "Stuart.C91_counterexample"
   ],
   "note": "False in one clause: of the sources of a plugin that fail only the first is reported. Everything else is proved. The texts of the errors of libraries and of cargo are parameters; plugin names are assumed to be names of files where the directory of a repository matters."
  },
  {
   "property": "C92",
   "status": "proved",
   "theorems": [
    "Stuart.C92_first",
    "Stuart.C92_panics",
    "Stuart.C92_listed",
    "Stuart.C92_cause",
    "Stuart.C92_only"
   ],
   "note": "When a template makes the parser panic is stated in C04_exact, what its errors say in C86."
  },
  {
   "property": "C93",
   "status": "partial",
   "theorems": [
    "Stuart.C93_save_partial",
    "Stuart.C93_content",
    "Stuart.C93_one_content",
    "Stuart.C93_build_partial",
    "Stuart.C93_apart"
   ],
   "note": "Both directions. Beyond the quantifier: names that do not lead out of the output directory (C41), no directory called index.html, the output directory not inside the temporary one, and the metadata file not inside the output directory. C93_apart says when names are apart, for projects without plugins for types of files."
  },
  {
   "property": "C94",
   "status": "partial",
   "theorems": [
    "Stuart.C94_build_partial"
   ],
   "note": "Conditions of C93: no markdown page beside a page of its name, no directory called index.html, no page called `..`. Where several files belong in one place one of them is found (C42)."
  },
  {
   "property": "C95",
   "status": "partial",
   "theorems": [
    "Stuart.C95_html_partial",
    "Stuart.C95_markdown_partial",
    "Stuart.C95_page_partial",
    "Stuart.C95_belongs_partial",
    "Stuart.C95_site_partial",
    "Stuart.C95_build_partial",
    "Stuart.C95_published_partial"
   ],
   "note": "For texts that are properly nested templates, rendered without an empty loop and without an untaken branch that holds a block (C17, C18), and names that do not lead out of the output directory (C41). C95_build_partial is for whole builds with scripts and in any mode. C108 drops the condition on loops and branches where no loop is within a loop. Frontmatter in the usual writing (C10)."
  },
  {
   "property": "C96",
   "status": "partial",
   "theorems": [
    "Stuart.C96_start",
    "Stuart.C96_settings",
    "Stuart.C96_shown_partial",
    "Stuart.C96_stays",
    "Stuart.C96_dev_partial",
    "Stuart.C96_first_partial"
   ],
   "note": "Conditions of C95; the project has no plugins for types of files. C96_dev_partial is for projects without scripts, C96_shown_partial for scripts that leave the output directory alone. Which file an address leads to is a parameter (a function of the HTTP library). A rebuild that fails while the site is saved is C45. Changes while a build runs are C56."
  },
  {
   "property": "C97",
   "status": "partial",
   "theorems": [
    "Stuart.C97_sound",
    "Stuart.C97_roomy",
    "Stuart.C97_builds_partial",
    "Stuart.C97_published_partial",
    "Stuart.C97_dev_partial"
   ],
   "note": "Conditions of C95, no mishaps of the file system. The conditions are sufficient, not necessary (C93 and C94 are exact, but in terms of what is made of files instead of texts and names)."
  },
  {
   "property": "C98",
   "status": "partial",
   "theorems": [
    "Stuart.C98_html",
    "Stuart.C98_markdown",
    "Stuart.C98_means",
    "Stuart.C98_sound",
    "Stuart.C98_published_partial",
    "Stuart.C98_fails",
    "Stuart.C98_dev_partial"
   ],
   "note": "C98_html and C98_markdown are exact for each page and hold whatever the rest of the site is. The whole build: names that do not lead out of the output directory (C41), no scripts, no mishaps of the file system. Frontmatter in the usual writing (C10)."
  },
  {
   "property": "C99",
   "status": "partial",
   "theorems": [
    "Stuart.C99_import",
    "Stuart.C99_data",
    "Stuart.C99_not_found",
    "Stuart.C99_posts_partial",
    "Stuart.C99_early"
   ],
   "note": "Content that has been read and converted (C93 says when it can be). C99_posts_partial is for markdown bodies that are properly nested templates, rendered without an empty loop and without an untaken branch that holds a block (C17, C18), with frontmatter in the usual writing (C10). What tokens do with what is found is C16 and C95. False of markdown bodies: C99_early (see C15)."
  }
 ]
}