# Formal model of Stuart in Lean 4

The code modelled is w-henderson/Stuart as found in `/repo` (crates `stuart-core` and `stuart`).
Everything below is about a hand-written Lean model; the code was read, never run.

## Trusted base

* Lean 4.33.0's kernel. No axioms are added; theorems use at most `propext`, `Classical.choice`, `Quot.sound`.
  No `sorry`, `native_decide`, `bv_decide`, `implemented_by`, `unsafe`.
* The reading of the Rust source into `lean/Verif/Model/*.lean`. Every definition cites the file and lines it models.
* The specifications in `lean/Verif/Spec/*.lean` (small, independent of the model's helpers).

## Modelling conventions

* Strings are `List Char` (a Rust `str` is a sequence of Unicode scalar values), byte buffers are `List UInt8`,
  UTF-8 encoding is core Lean's `String.utf8EncodeChar`.
* A Rust `Result` plus the possibility of a panic is `Res ε α = ok | err | panic`. Every `unwrap`, `todo!`,
  `unreachable!`, slice index in modelled code is an explicit `panic` branch.
* `&mut` parameters become returned values; loops become structural recursion. Where a loop's termination is not
  structural it gets a fuel argument; running out is the distinguished `panic .fuel`, and a theorem shows that it is
  never reached.
* `u32` line/column counters and `usize` sizes are `Nat` (files of 2^32 lines are out of scope).

## What is modelled where

| source | model |
|---|---|
| `stuart-core/src/parse/{parser,function,mod}.rs`, `functions/mod.rs`, parsing halves of `functions/parsers/*.rs` | `Parser`, `Function` |
| `stuart-core/src/parse/markdown.rs`, `contents.rs` | `Markdown`, `Node`, `Fs` |
| `stuart-core/src/process/*.rs`, executing halves of `functions/parsers/*.rs` | `Process`, `Build` |
| `stuart-core/src/fs/mod.rs`, `lib.rs`, `config.rs`, `plugins/mod.rs` | `Node`, `Build`, `Disk`, `Fs` |
| `stuart/src/build.rs`, `scripts.rs`, `config/*.rs`, `main.rs` (`build`, `bench`, `clean`, dispatch of errors) | `Cli` |
| `stuart/src/plugins/{mod,source}.rs` | `Plugins` |
| `stuart/src/plugins/js/*.rs` | `Js`, `JsLoad`, `JsState`, `JsCall` |
| `stuart/src/serve/mod.rs` | `Serve` |
| `stuart/src/new.rs`, `config/git.rs` | `New` |
| `stuart/src/error.rs` | `Display`, `Report` |
| `plugins/imgopt/src/lib.rs`, `plugins/demo/src/*.rs` | `Imgopt`, `Demo` |

Layers: `Model/` (the code), `Spec/` (what the properties say, by relations that do not use the model's helpers),
`Proof/` (lemmas), `Props/` (the theorems named in MANIFEST.json, each with a concrete case that meets its hypotheses; the
sections "Cases" at the end of the files apply the theorems to closed terms).

## Parts that are parameters (arbitrary in every theorem)

* `char::is_alphanumeric`: any table that agrees with ASCII and is disjoint from whitespace.
* The libraries: the JSON parser and printer of `humphrey_json`, the markdown renderer `pulldown_cmark`, dates
  (`dateparser`, `chrono`), the TOML reader (constrained by `ManifestOf` where a property is about the contents of
  `stuart.toml`), `oxipng`, the search of `try_find_path` and the MIME table of the HTTP library.
* Plugin function bodies: a function of the visible scopes, giving variables to define and bytes to output. Functions that keep a
  state (JavaScript) are only in `Model/JsState` and `Model/JsCall` (C115); by `C115_build_forgets` all else holds of functions that make no use of one. Plugin node
  parsers and processors: functions of bytes, path and templates.
* Build scripts and other programs (shell, `git`, `cargo`): arbitrary transformers of the disk with an exit status or a
  failure to start; they may answer differently each time (numbered runs). HTTP requests: any status and body.
* The file system may fail any operation for reasons of its own (the list of mishaps of a `World`).
* The order of a directory listing is the order of the list; the order of a `HashMap` (plugins) is the order of the list.
* The order of events in the watcher: a transition system with edits interleaved anywhere.

Assumed about `humphrey_json::Value`: objects are ordered association lists, `get(key)` finds the first match,
`v[key] = x` replaces the first match or appends; numbers are IEEE doubles, modelled as exact rationals plus
infinities and NaN, `as i32` truncates and saturates.

## Simplifications

* Paths: `/`-separated lists of names. the manifest path is resolved as the system does it (`canonicalize`: every directory on the
  way must exist), `-o` and plugin names by their text only (`joinPath`); no symbolic links (an entry that is neither a file nor a directory is `special`: reading it fails); no
  permissions; only the branches for systems other than Windows; names and environment variables are Unicode (the code
  panics or fails on others: `std::env::vars()` panics on a variable that is not Unicode).
* `remove_dir_all` on a path ending in `.` is taken to remove the directory.
* `excerpt` reserves memory for its length before it starts; running out of memory is not modelled anywhere.
* Script and program output is bytes; the lossy conversion is a parameter.
* The watcher: one event at a time, one build at a time; the debounce window and the emptying of the queue are steps of
  the transition system. Time is not modelled.
* JavaScript values are finite trees of own enumerable properties (no getters, cycles, prototypes with effects); a
  function is deterministic in its arguments and the visible variables. V8 itself is external.
* Error display: without colours and the removal of `\\?\`; texts that errors carry but the model does not keep are
  parameters (`Unkept`).
* Error values are kept as constructors with their data.
* `sort_by` is an insertion sort: like the code's it is stable, and the order is total, so there is only one result.
* What is written to the terminal is given by functions that run beside those they are about (`Model/Terminal`): without
  colours, and with durations as parameters. The floating point numbers of the progress bar and of the means of a benchmark are rounded as in IEEE 754.

## Not modelled

Argument parsing by `clap`, colours, what JavaScript plugins print, the HTTP and websocket stack and the threads of
the server, V8, `libloading`, the test `js` of a JavaScript plugin (in `stuart/src/test.rs`),
the order of evaluation inside libraries, memory exhaustion, real time.

## How the theorems are tested

Realistic bugs are put into a scratch copy of the model, one at a time, and the whole development is rebuilt; a mutant
that survives shows a theorem that says too little. That a proof breaks does not yet show that its theorem has become
false, so most mutants also have a witness: in a second scratch copy, in which all proofs are removed, `False` is derived
from the statement of a theorem about the mutated model. `seeded/LOG.jsonl` has for each mutant the edit, the claim it
breaks, the theorems that failed, those refuted by the witness, and those tightened because of it.

## How the model is tested

The test harness of the core library (`stuart-core/src/tests/mod.rs`) is modelled too (`Model/Tests`). The eleven test cases of
the repository, with their files as they are, are run on the model by the kernel, and all pass (`Props/Tests`, made by a
program from the files; C111). The libraries are replaced there by tables for the texts that occur.

## Plan per property

| id | modelled by | proof |
|---|---|---|
| C01 C02 | scanner (`extract_until`, `extract_remaining`) as recursion on the remaining characters | induction on the text; the two escape paths proved equal; counterexample for `\{{{` |
| C03 C06 C07 | whole template parser; printer in Spec | induction over pieces and arguments |
| C04 | parser with explicit panics and fuel | fuel bound by induction; panic characterised exactly; witness |
| C05 | built-in table and plugin list search | case analysis / list search lemmas |
| C08 C09 | location counters in parser state | invariant over consumed prefix; witness for markdown offset |
| C10 C11 C12 | `str::lines`, frontmatter loop | induction over lines |
| C13 C14 C15 | token interpreter with fuel | suffix/measure invariant, stack invariant by induction |
| C16 C17 C18 | interpreter vs. denotational semantics of block-structured templates (Spec; `Spec.yields` for single tokens, independent of the interpreter) | refinement by induction on the template; witnesses where the code deviates; what the code does instead for every token sequence (`C17_exact`, `C18_first_end`, `C18_first_else`, `C18_no_end`) |
| C19 | items pipeline (`sort_by_cached_key` as stable merge sort) | sortedness, permutation, stability |
| C20 C21 C22 C25 | scope stack | induction over execution |
| C23 C24 | `Input` comparison | case analysis over all integers; witness for `ifle`, truncation; numbers in general by what they count as (`Spec.Cut`) |
| C26 C27 | scanning loops | induction on the text |
| C28 C29 C30 C31 | interpreter + page pipeline | invariants over execution; witness for root templates |
| C32 | path components | case analysis |
| C33 | UTF-8 encode/decode | invariant: all buffers are encodings |
| C34 | build over tree | congruence of interpreter in the data view |
| C35 C36 C37 | `build_node`, environment | induction on trees |
| C38 C39 | merge | induction on trees |
| C40–C43 C45 | save as a list of disk operations on a disk tree | disk lookup lemmas, induction over operations; crash = prefix of operations |
| C44 C46 C47 C49 C51 | build pipeline as state transformer | case analysis on steps |
| C48 | metadata export | induction on trees |
| C50 C52 | configuration, environment | direct; witness |
| C53 | source loop with oracle for load results | induction over sources |
| C54 C55 | injection, swap-remove loop | list induction |
| C56 C57 | watcher as transition system with interleaved edits | invariant; witness schedules |
| C58 C59 | JS values, scope variables | induction; witnesses |
| C60 | disk operations | disk lookup lemmas |
| C61 C75 C76 | positions in tokens and errors; `error.rs` | invariants over parsing and execution; witnesses for errors without a place |
| C62 C63 C78 | reading as recursion on the disk | lookup lemmas; congruence of the whole build under permuted listings; witnesses |
| C64 C65 C66 C69 C70 | plugin loader over an oracle for programs and HTTP | case analysis on steps; witnesses (names with `-` and `..`, error bodies) |
| C67 | JS functions and effects | case analysis; witness |
| C68 | grammar as an inductive relation | soundness and completeness of the parser, unambiguity |
| C71 | watcher reactions | case analysis; witness for pathless events |
| C72 C73 C74 | `stuart new`, its manifest | disk lookup lemmas; exact characterisation of names that survive quoting; the build pipeline on the written site |
| C77 | benchmark loop | induction over iterations, idempotence of a build (C47) |
| C79 C80 C81 | plugin lists, node parsers, `imgopt` | simulation of reading and building with and without the plugin; permutation lemmas; witnesses |
| C82 | `Context.init`, `canonicalize`, `findScripts` | relation `Spec.Start`, case analysis; induction on the path for `Spec.Way` |
| C83 | `readTree`, `buildTree`, `mergeDirs`, `saveNode` | relations `Spec.Made`, `Spec.Belongs` over the disk; following a node by names through each pass (`Under`, `comes_from`, `comes_to`) |
| C84 | `error.rs` as functions from errors to texts | case analysis; the tag of a failing token by induction over the grammar |
| C85 | the demonstration plugin | `C05_first_plugin`, one step of the interpreter |
| C86 | what a parse error says | faults defined as an inductive relation (`Spec/Faults`); both directions for `expect`, values, arguments, calls, tags and files |
| C87 | lines of a build beside the build (`buildSay`) | case analysis over the steps; the scripts named are the runs recorded |
| C88 C89 | logger state, levels, `main` | induction over what is said; witnesses for `bench`, `dev` and plugin sources |
| C90 | division and multiplication of 64-bit floating point as rounding of fractions | rounding does not cross integers; error bounds; induction over the builds |
| C91 | lines written beside the loading of plugins | induction over sources and plugins; case split by kind of source |
| C92 | reading as a sequence of readings of the leaves of a tree | induction over the tree; first failure of a sequence |
| C93 | whole build as an equivalence | `Spec.Content` (relations for reading and converting, equal to the functions), `Spec.Publishable`; each pass total under its condition |
| C94 | `cmdBuild` | C82 for starting up, then C93 and C83 |
| C95 | text to output | C68 for the text, `Tpl.eval` (C16) for its meaning, C94 for publishing; `Spec.PageMeans` |
| C96 | `startDev`, `onEvent`, `serveDir` | `Spec.Serving` (histories of the server) keeps the settings; then C95 and C54 |
| C97 | texts and names to success | `Spec.Ready` implies the exact conditions of C93; then C95 and C96 |
| C98 | simple texts: strings to strings | `Spec.Sheet.fill` is what the tokens of `Sheet.text` mean, by induction on the text; simple texts are `Sound`; then C97 |
| C99 | paths in templates to files on disk | `Spec.Aims` and `look` against `written` in the tree read (`ReadList`) and converted (`UsedList`), by induction on the names; `Spec.Posts` against `mdItems` |
| C100 | `Term.says` over what each command says; `mainDev` | `Spec.screenLine`, `Spec.buildShown`; induction over the builds of a benchmark |
| C101 | means of a benchmark | `Spec.IsMean`, `Spec.Hundredths`; each rounding is off by at most 2^-16 ms, by induction over the builds |
| C102 | `loadJs`, the exported value as a tree | `Spec.Exports`, `Spec.NoPlugin`; induction over the list of functions; C05 and C64 for calls and files |
| C103 | the whole of `build` and `clean` at two places | `Spec.Twins`, `Spec.movedCli`; every function from parsing to saving commutes with changing paths (`Proof/Move*`) |
| C104 | whole builds in two environments and modes | `Spec.NoEnv`, `Spec.Blind`; states alike up to variables called `env` (`Proof/Mode*`), with the grammar of C68 to see that no token asks |
| C105 | `Stuart::new_from_node` and `Node::process` (`Model/Memory`) against a whole build | `Spec.NoEnv`, `Spec.template`, `Spec.nodeAt`; the relation of C104, under which a base frame without `env` is like any other |
| C106 | Two contents that agree where a page points (`Proof/Refers`): tokens find the same, so the runs are equal step by step; markdown found there is converted alike | `Spec.SameFor`, `Spec.RefersTo`, `Spec.Elsewhere`, in terms of `Spec.Aims`, `Spec.InForce` and what the disk has; `Spec.MadeInto` and `Spec.Belongs` of C93 |
| C107 | Two token lists run side by side (`Proof/Rename`): the stacks bind the same values under related names, which decides every look-up alike; carried through preprocessing, rendering and saving (`Proof/RenameTree`, `Proof/RenameRun`) | `Spec.Renames`, `Spec.ToksLike`, `Spec.RetoldDisks`, `Spec.FailLike`: what may differ between two files, in terms of tokens and what files are read as |
| C108 | No loop within a loop: a block that goes wrong eats the `end` of what surrounds it, and then the rest of the page has too few of them, so that the run ends with an open frame and an error (`Proof/Single`: every run only closes frames that its tokens name; `Proof/Tamed`: so an ok run is a tame one) | `Tpl.eval` and `Tpl.Tame` of C16; `Spec.SinglePage` for pages of a site. Witnesses for loops within loops |
| C109 | C97 one way, C108 the other | `Spec.Sound` (C97) |
| C110 | Induction on two templates with the same tokens, each followed by something that begins with a closing tag; and on the length of the tokens | `Spec.Nests`: a stack of open blocks, read once from left to right |
| C111 | Evaluation of the test cases in the kernel; what a verdict says by unfolding the harness, clashes with the base by C38 | `Spec.SameButBreaks`, an inductive relation; `look` |
| C112 | Values are compared with the fields in question removed everywhere (`Proof/Fields`: `bare`), which commutes with every look-up that does not name one, with sorting and with the frontmatter's conversion; two runs side by side, in general for values that look-ups cannot tell apart (`Proof/Tell`, `Proof/TellTree`), then as for C107 | `Spec.ValueBut`, `Spec.FrontBut`, `Spec.KeyIn`, `Spec.readsOf`, `Spec.RefieldedDisks` |
| C113 | That being alike is kept by look-ups and shows nothing else makes it a case of the simulation of C112 (`Proof/Alike`, `Proof/Tell`); for the other direction, three templates (`Proof/Probe`) tell null, texts and integral parts, and lists and their lengths, at the end of every path, and values that these do not tell apart are alike by induction on their size | `Spec.SeenAlike`, `Spec.part`, `Spec.Fits`, `Spec.FileAlike`, `Spec.ChangedDisks`, `Spec.PluginFree` |
| C114 | From the build of a new site (C74), as the test builds the same project; that the path of the manifest is found by induction on it; cases of the outcome | `Spec.newSite`, `Spec.ManifestOf`, `Spec.Names`, `look` |
| C115 | The interpreter and the build once more with a state that calls read and change (`Model/JsState`); a simulation for any relation of states that the calls keep; without a state it is the other interpreter; calls with a state (`Model/JsCall`) against calls without; the builds of a development server by induction; the tests by evaluation | `CallsOnly`, `TreeCallsOnly`, `Forgets`, `JsRunS.seen`, `JsRunS.tell` |
| C116 | Relational parametricity: whatever relation the functions of the plugins are in, those of the tokens are in; induction on the parser and on directories | `Spec/Beside`: `Beside`, `Outcomes`, `TokBeside`, `NodeBeside` |

Status of each property is in MANIFEST.json.

## Axioms used

From `#print axioms`, for the theorems listed in MANIFEST.json.

* none: `C56_counterexample`, `C57_counterexample`, `C58_counterexample`, `C58_panic`, `C72_texts`, `C90_ten`, `C90_counterexample`, `C104_plugins`
* propext: `C05_letters`, `C17_counterexample_silent`, `C20_coverage`, `C26_counterexample_bytes`, `C26_counterexample_tag`, `C39_leaves_partial_merge`, `C41_counterexample_dots`, `C42_distinct_partial`, `C42_counterexample_index`, `C45_counterexample`, `C48_plugin_panic`, `C49_not_built`, `C49_not_enabled`, `C50_config`, `C52_counterexample`, `C60_not_a_project`, `C54_other`, `C54_address`, `C59_counterexample`, `C59_counterexample_dot`, `C59_undefined`, `C67_output`, `C72_absolute`, `C73_injected`, `C76_path`, `C84_parse_texts`, `C84_process_texts`, `C84_program_texts`, `C84_conflict`, `C84_counterexample_help`, `C91_texts`, `C103_plugins`, `C103_paths`, `C108_counterexample_empty`, `C108_counterexample_skipped`, `C110_unique`
* propext, Quot.sound: `C01_plain_text`, `C02_escaped_text_partial`, `C04_no_crash_partial`, `C04_total_partial`, `C09_error_lines_partial`, `C09_offset`, `C10_frontmatter_round_trip`, `C17_counterexample`, `C18_counterexample`, `C18_counterexample_output`, `C23_counterexample`, `C24_counterexample_range`, `C14_base_kept`, `C21_block`, `C21_step`, `C21_unchanged`, `C28_sections_grow`, `C31_end`, `C31_open_scopes`, `C32_coverage`, `C61_error_positions`, `C15_counterexample_plugin`, `C33_text`, `C27_monotone`, `C30_left_open`, `C30_counterexample_root`, `C37_order`, `C38_union`, `C38_succeeds`, `C39_conflict`, `C39_keeps`, `C45_first_step_partial`, `C48_exported`, `C51_found`, `C51_failure`, `C60_nothing_else`, `C60_succeeds`, `C54_inject`, `C54_cases`, `C54_type`, `C55_notify`, `C67_call`, `C67_not_called`, `C67_effect`, `C67_counterexample`, `C71_reacts`, `C72_created`, `C72_git`, `C72_refused`, `C72_frame`, `C76_unreadable`, `C76_line_zero`, `C84_reported`, `C84_lines`, `C84_parse_message`, `C84_process_message`, `C84_help_texts`, `C92_listed`, `C98_means`, `C103_clean`, `C110_nests`, `C110_single`, `C115_own`, `C115_frame`, `C115_site`, `C115_forgets`, `C115_call`, `C115_call_unreached`, `C115_call_state`, `C115_call_leaves`, `C115_again_partial`, `C116_html`, `C116_markdown`, `C116_js`
* propext, Classical.choice, Quot.sound: `C02_escaped_around_tag_partial`, `C02_counterexample`, `C03_round_trip`, `C04_exact`, `C04_counterexample`, `C04_counterexample_named`, `C05_builtin_first`, `C05_builtin_shadows`, `C05_first_plugin`, `C05_unknown`, `C06_argument_order`, `C06_positional_after_named`, `C07_argument_literals_partial`, `C07_counterexample`, `C08_lines`, `C08_tag_line`, `C09_counterexample`, `C11_unclosed`, `C11_malformed`, `C11_nothing_skipped`, `C12_line_endings`, `C16_blocks_partial`, `C17_empty_loop_partial`, `C17_exact`, `C18_not_taken_partial`, `C18_no_else_partial`, `C18_first_end`, `C18_first_end_other`, `C18_first_else`, `C18_no_end`, `C19_loop_order`, `C19_sorting`, `C23_integers_partial`, `C23_ifle_strict`, `C23_texts`, `C23_mixed`, `C23_order`, `C23_no_operand`, `C24_numbers_partial`, `C24_exact`, `C24_counts`, `C24_counterexample`, `C25_ifdefined`, `C13_terminates`, `C13_bounds_irrelevant`, `C14_never_out_of_scopes`, `C14_end_without_begin`, `C20_variable`, `C22_import`, `C28_insert`, `C31_decimal`, `C32_paths`, `C32_import`, `C32_for`, `C15_no_panic_partial`, `C15_build_partial`, `C15_counterexample_markdown`, `C33_markdown`, `C26_excerpt_partial`, `C26_exact`, `C26_not_a_string`, `C27_time_to_read`, `C29_page`, `C29_only_sections`, `C30_page_partial`, `C30_root`, `C34_independent`, `C35_same_tree`, `C36_nearest`, `C36_missing`, `C37_succeeds`, `C37_first_error`, `C40_saved_partial`, `C40_exact_partial`, `C40_succeeds_partial`, `C41_outside_partial`, `C41_stale_partial`, `C42_last_partial`, `C42_counterexample_md`, `C45_recovery_partial`, `C43_verbatim_partial`, `C43_counterexample_dropped`, `C43_counterexample_overwritten`, `C48_mirror`, `C48_values`, `C48_written`, `C49_failed_build`, `C62_mirror`, `C63_succeeds`, `C63_one_way`, `C44_untouched`, `C44_kept`, `C46_files_partial`, `C46_gone_partial`, `C46_build`, `C46_counterexample`, `C47_same_partial`, `C47_again_partial`, `C47_counterexample`, `C50_used`, `C51_order`, `C51_stops`, `C51_context`, `C51_paths`, `C51_out`, `C52_env_partial`, `C52_exact`, `C60_exact`, `C53_loads`, `C53_fails`, `C53_panics`, `C53_why`, `C53_workspace`, `C53_count`, `C53_counterexample`, `C55_when`, `C56_caught_up_partial`, `C57_builds_partial`, `C57_own`, `C58_exact`, `C58_contents_partial`, `C59_set_get_partial`, `C59_seen_partial`, `C64_local`, `C64_library`, `C64_script`, `C65_cargo_partial`, `C65_exact`, `C65_counterexample`, `C66_found`, `C68_exact`, `C68_unambiguous`, `C68_values`, `C68_calls`, `C68_white`, `C69_first`, `C69_later`, `C69_loads`, `C69_clones`, `C70_saved`, `C70_loads`, `C70_none`, `C70_frame_partial`, `C70_counterexample_name`, `C70_counterexample_status`, `C71_event`, `C73_exact`, `C73_manifest_partial`, `C73_quote`, `C74_builds`, `C75_place`, `C76_quotes`, `C76_template`, `C76_json`, `C76_frontmatter`, `C77_bench`, `C77_once_partial`, `C77_counterexample_temp`, `C78_tree_partial`, `C78_site_partial`, `C78_counterexample`, `C78_counterexample_clash`, `C78_counterexample_state`, `C79_frame`, `C79_processed`, `C79_succeeds`, `C79_fails`, `C80_optimised`, `C80_rest`, `C80_succeeds`, `C80_error`, `C81_order_partial`, `C81_counterexample`, `C81_counterexample_type`, `C82_start`, `C82_one_way`, `C82_succeeds`, `C83_site_partial`, `C83_build_partial`, `C84_render`, `C84_page`, `C84_script`, `C85_call`, `C85_arguments`, `C86_exact`, `C86_once`, `C86_complete`, `C87_lines`, `C87_steps`, `C87_times`, `C88_quiet_partial`, `C88_level`, `C88_verbose`, `C88_counterexample_bench`, `C88_counterexample_dev`, `C89_status`, `C89_error`, `C89_line_partial`, `C89_counterexample_bench`, `C89_counterexample_source`, `C90_bar`, `C90_text`, `C90_progress`, `C90_length`, `C91_reports`, `C91_no_reports`, `C91_skipped`, `C91_skipped_all`, `C91_file`, `C91_cargo`, `C91_git`, `C91_download`, `C91_nothing`, `C91_plugins`, `C91_stops`, `C91_loaded`, `C91_unloaded`, `C91_counterexample`, `C92_first`, `C92_panics`, `C92_cause`, `C92_only`, `C93_save_partial`, `C93_content`, `C93_one_content`, `C93_build_partial`, `C93_apart`, `C94_build_partial`, `C95_html_partial`, `C95_markdown_partial`, `C95_page_partial`, `C95_belongs_partial`, `C95_site_partial`, `C95_build_partial`, `C95_published_partial`, `C96_start`, `C96_settings`, `C96_shown_partial`, `C96_stays`, `C96_dev_partial`, `C96_first_partial`, `C97_sound`, `C97_roomy`, `C97_builds_partial`, `C97_published_partial`, `C97_dev_partial`, `C98_html`, `C98_markdown`, `C98_sound`, `C98_published_partial`, `C98_fails`, `C98_dev_partial`, `C99_import`, `C99_data`, `C99_not_found`, `C99_posts_partial`, `C99_early`, `C100_new`, `C100_build`, `C100_bench`, `C100_dev`, `C100_dev_fails`, `C100_change`, `C101_figures_partial`, `C101_counterexample_none`, `C101_between`, `C101_steady`, `C101_true`, `C101_parts`, `C102_loads`, `C102_distinct`, `C102_refused`, `C102_source`, `C102_call`, `C102_counterexample_nameless`, `C102_counterexample_bare`, `C102_counterexample_twice`, `C102_counterexample_listlike`, `C102_counterexample_list`, `C103_build`, `C104_build`, `C104_bench`, `C104_dev`, `C105_same`, `C105_crash`, `C105_from_disk`, `C105_env`, `C106_page`, `C106_elsewhere`, `C106_site`, `C106_published`, `C106_change`, `C107_run`, `C107_page`, `C107_build`, `C107_pages`, `C107_counterexample_source`, `C108_exact_partial`, `C108_renders_partial`, `C108_html_partial`, `C108_markdown_partial`, `C108_page_partial`, `C108_build_partial`, `C108_published_partial`, `C108_dev_partial`, `C109_sound_partial`, `C109_iff_partial`, `C109_builds_partial`, `C110_text`, `C110_means`, `C110_published`, `C111_all`, `C111_means`, `C111_clash`, `C112_run`, `C112_page`, `C112_build`, `C113_page`, `C113_tells`, `C113_iff`, `C113_build`, `C114_basic`, `C114_means`, `C114_exits`, `C114_frame`, `C114_lost`, `C114_counterexample_metadata`, `C115_build`, `C115_build_forgets`, `C115_isolation`, `C115_order`, `C115_js`, `C115_session`, `C115_session_next`, `C115_session_case`, `C115_session_partial`, `C115_rebuild_partial`, `C115_hidden_partial`, `C115_counterexample_again`, `C115_counterexample_rebuild`, `C116_tree`, `C116_case`
