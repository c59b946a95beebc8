import Verif.Model.Tests
/-
The test cases of the core library (stuart-core/src/tests/testcases), run on the model. The files are copied as they are; this
file is made from them by a program.
-/
namespace Stuart

/-! ### What the libraries make of these files -/

def base_dataText : Str := str!"[\n  {\n    \"name\": \"United Kingdom\",\n    \"continent\": \"Europe\",\n    \"attractions\": [\n      \"Buckingham Palace\",\n      \"Tower of London\",\n      \"Stonehenge\"\n    ],\n    \"independence\": null\n  },\n  {\n    \"name\": \"United States\",\n    \"continent\": \"North America\",\n    \"attractions\": [\n      \"Statue of Liberty\",\n      \"Grand Canyon\",\n      \"Golden Gate Bridge\"\n    ],\n    \"independence\": \"July 4th, 1776\"\n  },\n  {\n    \"name\": \"Japan\",\n    \"continent\": \"Asia\",\n    \"attractions\": [\n      \"Tokyo Tower\",\n      \"Mount Fuji\",\n      \"Osaka Castle\"\n    ],\n    \"independence\": null\n  }\n]"

def base_dataValue : Value := .arr [.obj [(str!"name", .str str!"United Kingdom"), (str!"continent", .str str!"Europe"), (str!"attractions", .arr [.str str!"Buckingham Palace", .str str!"Tower of London", .str str!"Stonehenge"]), (str!"independence", .null)], .obj [(str!"name", .str str!"United States"), (str!"continent", .str str!"North America"), (str!"attractions", .arr [.str str!"Statue of Liberty", .str str!"Grand Canyon", .str str!"Golden Gate Bridge"]), (str!"independence", .str str!"July 4th, 1776")], .obj [(str!"name", .str str!"Japan"), (str!"continent", .str str!"Asia"), (str!"attractions", .arr [.str str!"Tokyo Tower", .str str!"Mount Fuji", .str str!"Osaka Castle"]), (str!"independence", .null)]]

def conditionals_testcaseText : Str := str!"{\n  \"name\": \"Stuart\",\n  \"age\": 18\n}"

def conditionals_testcaseValue : Value := .obj [(str!"name", .str str!"Stuart"), (str!"age", .num (.fin 18))]

def markdown_functions_testcaseText : Str := str!"{\n  \"string\": \"functions in markdown\"\n}"

def markdown_functions_testcaseValue : Value := .obj [(str!"string", .str str!"functions in markdown")]

/-- The JSON files. -/
def repoJson (s : Str) : Option Value :=
  if s == base_dataText then some base_dataValue else
  if s == conditionals_testcaseText then some conditionals_testcaseValue else
  if s == markdown_functions_testcaseText then some markdown_functions_testcaseValue else
  none

/-- A text of one paragraph. -/
def repoMarkdown (s : Str) : Str := str!"<p>" ++ trim s ++ str!"</p>\n"

/-- The days of the dates in the test cases. -/
def repoDate (d f : Str) : Option Str :=
  if f != str!"%A" then none else
  if d == str!"2022-09-01" then some str!"Thursday" else
  if d == str!"2022-09-02" then some str!"Friday" else
  none

def repoSys : Sys := ⟨.asciiOnly, ⟨repoMarkdown⟩, repoDate, repoJson, fun _ => [], []⟩

/-! ### The files -/

def repoBase : Entry := .dir [(str!"data.json", .file (bytesOf str!"[\n  {\n    \"name\": \"United Kingdom\",\n    \"continent\": \"Europe\",\n    \"attractions\": [\n      \"Buckingham Palace\",\n      \"Tower of London\",\n      \"Stonehenge\"\n    ],\n    \"independence\": null\n  },\n  {\n    \"name\": \"United States\",\n    \"continent\": \"North America\",\n    \"attractions\": [\n      \"Statue of Liberty\",\n      \"Grand Canyon\",\n      \"Golden Gate Bridge\"\n    ],\n    \"independence\": \"July 4th, 1776\"\n  },\n  {\n    \"name\": \"Japan\",\n    \"continent\": \"Asia\",\n    \"attractions\": [\n      \"Tokyo Tower\",\n      \"Mount Fuji\",\n      \"Osaka Castle\"\n    ],\n    \"independence\": null\n  }\n]")),
    (str!"md.html", .file (bytesOf str!"{{ begin(\"main\") }}\n<h1>{{ $self.title }}</h1>\n{{ $self.content }}\n{{ end(\"main\") }}")),
    (str!"posts", .dir [(str!"post_1.md", .file (bytesOf str!"---\ntitle: \"Post 1\"\ndate: \"2022-09-01\"\nother_field: \"this has a : colon in it\"\n---\n\nThis is post 1")),
    (str!"post_2.md", .file (bytesOf str!"---\ntitle: \"Post 2\"\ndate: \"2022-09-02\"\n---\n\nThis is post 2"))]),
    (str!"root.html", .file (bytesOf str!"<html>\n<body>\n{{ insert(\"main\") }}\n</body>\n</html>"))]

def case_conditionals : Entry := .dir [(str!"in.html", .file (bytesOf str!"{{ begin(\"main\") }}\n{{ import($data, \"testcase.json\") }}\n\n{{ ifeq($data.name, \"Stuart\") }}\n<p>Name is Stuart</p>\n{{ end(ifeq) }}\n\n{{ ifne($data.name, \"Stuart\") }}\n<p>Name is not Stuart</p>\n{{ end(ifne) }}\n\n{{ ifeq($data.name, \"Humphrey\") }}\n<p>Name is Humphrey</p>\n{{ end(ifeq) }}\n\n{{ ifne($data.name, \"Humphrey\") }}\n<p>Name is not Humphrey</p>\n{{ end(ifne) }}\n\n{{ ifge($data.age, 18) }}\n<p>Is an adult</p>\n{{ else() }}\n<p>Is not an adult</p>\n{{ end(ifge) }}\n\n{{ iflt($data.age, 18) }}\n<p>Is a child</p>\n{{ else() }}\n<p>Is not a child</p>\n{{ end(iflt) }}\n\n{{ end(\"main\") }}")),
    (str!"out", .file (bytesOf str!"<html>\n<body>\n<p>Name is Stuart</p>\n<p>Name is not Humphrey</p>\n<p>Is an adult</p>\n<p>Is not a child</p>\n</body>\n</html>")),
    (str!"testcase.json", .file (bytesOf str!"{\n  \"name\": \"Stuart\",\n  \"age\": 18\n}"))]

def case_dateformat : Entry := .dir [(str!"in.html", .file (bytesOf str!"{{ begin(\"main\") }}\n<ul>\n{{ for($post, \"posts/\", sortby=$post.title, order=\"asc\") }}\n<li>{{ $post.title }} was posted on a {{ dateformat($post.date, \"%A\") }}</li>\n{{ end(for) }}\n</ul>\n{{ end(\"main\") }}")),
    (str!"out", .file (bytesOf str!"<html>\n<body>\n<ul>\n<li>Post 1 was posted on a Thursday</li>\n<li>Post 2 was posted on a Friday</li>\n</ul>\n</body>\n</html>"))]

def case_escape : Entry := .dir [(str!"in.html", .file (bytesOf str!"{{ begin(\"main\") }}\n<ul>\n{{ for($post, \"posts/\", sortby=$post.title, order=\"asc\") }}\n<li>{{ $post.content }} \\{{ $self.author }} • \\{{ dateformat($self.date, \"%d %B %Y\") }}</li>\n{{ end(for) }}\n</ul>\n{{ end(\"main\") }}")),
    (str!"out", .file (bytesOf str!"<html>\n<body>\n<ul>\n<li><p>This is post 1</p> {{ $self.author }} • {{ dateformat($self.date, \"%d %B %Y\") }}</li>\n<li><p>This is post 2</p> {{ $self.author }} • {{ dateformat($self.date, \"%d %B %Y\") }}</li>\n<li><p>{{ hello }}</p> {{ $self.author }} • {{ dateformat($self.date, \"%d %B %Y\") }}</li>\n</ul>\n</body>\n</html>")),
    (str!"posts", .dir [(str!"post_3.md", .file (bytesOf str!"---\ntitle: \"Post 3\"\ndate: \"2022-09-03\"\n---\n\n\\{{ hello }}"))])]

def case_excerpt : Entry := .dir [(str!"in.html", .file (bytesOf str!"{{ begin(\"main\") }}\n<ul>\n{{ for($post, \"posts/\", sortby=$post.title, order=\"asc\") }}\n<li>{{ excerpt($post.content, 5) }}</li>\n{{ end(for) }}\n</ul>\n<ul>\n{{ for($post, \"posts/\", sortby=$post.title, order=\"asc\") }}\n<li>{{ excerpt($post.content, 100) }}</li>\n{{ end(for) }}\n</ul>\n{{ end(\"main\") }}")),
    (str!"out", .file (bytesOf str!"<html>\n<body>\n<ul>\n<li>This ...</li>\n<li>This ...</li>\n</ul>\n<ul>\n<li>This is post 1</li>\n<li>This is post 2</li>\n</ul>\n</body>\n</html>"))]

def case_for_loop_json_file : Entry := .dir [(str!"in.html", .file (bytesOf str!"{{ begin(\"main\") }}\n<ul>\n{{ for($country, \"data.json\") }}\n<li>{{ $country.name }} ({{ $country.continent }})</li>\n{{ end(for) }}\n</ul>\n{{ end(\"main\") }}")),
    (str!"out", .file (bytesOf str!"<html>\n<body>\n<ul>\n<li>United Kingdom (Europe)</li>\n<li>United States (North America)</li>\n<li>Japan (Asia)</li>\n</ul>\n</body>\n</html>"))]

def case_for_loop_json_object : Entry := .dir [(str!"in.html", .file (bytesOf str!"{{ begin(\"main\") }}\n{{ import($data, \"data.json\") }}\n<ul>\n{{ for($attraction, $data.0.attractions) }}\n<li>{{ $attraction }}</li>\n{{ end(for) }}\n</ul>\n{{ end(\"main\") }}")),
    (str!"out", .file (bytesOf str!"<html>\n<body>\n<ul>\n<li>Buckingham Palace</li>\n<li>Tower of London</li>\n<li>Stonehenge</li>\n</ul>\n</body>\n</html>"))]

def case_for_loop_markdown : Entry := .dir [(str!"in.html", .file (bytesOf str!"{{ begin(\"main\") }}\n<ul>\n{{ for($post, \"posts/\", sortby=$post.date, order=\"desc\") }}\n<li>{{ $post.title }}</li>\n{{ end(for) }}\n</ul>\n{{ end(\"main\") }}")),
    (str!"out", .file (bytesOf str!"<html>\n<body>\n<ul>\n<li>Post 2</li>\n<li>Post 1</li>\n</ul>\n</body>\n</html>"))]

def case_for_loop_nested : Entry := .dir [(str!"in.html", .file (bytesOf str!"{{ begin(\"main\") }}\n<ul>\n{{ for($country, \"data.json\") }}\n<li>\n<ul>\n{{ for($attraction, $country.attractions) }}\n<li>{{ $attraction }}</li>\n{{ end(for) }}\n</ul>\n</li>\n{{ end(for) }}\n</ul>\n{{ end(\"main\") }}")),
    (str!"out", .file (bytesOf str!"<html>\n<body>\n<ul>\n<li>\n<ul>\n<li>Buckingham Palace</li>\n<li>Tower of London</li>\n<li>Stonehenge</li>\n</ul>\n</li>\n<li>\n<ul>\n<li>Statue of Liberty</li>\n<li>Grand Canyon</li>\n<li>Golden Gate Bridge</li>\n</ul>\n</li>\n<li>\n<ul>\n<li>Tokyo Tower</li>\n<li>Mount Fuji</li>\n<li>Osaka Castle</li>\n</ul>\n</li>\n</ul>\n</body>\n</html>"))]

def case_for_loop_skip_limit : Entry := .dir [(str!"in.html", .file (bytesOf str!"{{ begin(\"main\") }}\n<ul>\n{{ for($country, \"data.json\", skip=1, limit=1) }}\n<li>{{ $country.name }}</li>\n{{ end(for) }}\n</ul>\n{{ end(\"main\") }}")),
    (str!"out", .file (bytesOf str!"<html>\n<body>\n<ul>\n<li>United States</li>\n</ul>\n</body>\n</html>"))]

def case_ifdefined : Entry := .dir [(str!"in.html", .file (bytesOf str!"{{ begin(\"main\") }}\n<ul>\n{{ for($country, \"data.json\") }}\n\n{{ ifdefined($country.independence) }}\n<li>{{ $country.name }} gained independence on {{ $country.independence }}.</li>\n{{ else() }}\n<li>{{ $country.name }} does not celebrate an independence day.</li>\n{{ end(ifdefined) }}\n\n{{ end(for) }}\n</ul>\n{{ end(\"main\") }}")),
    (str!"out", .file (bytesOf str!"<html>\n<body>\n<ul>\n<li>United Kingdom does not celebrate an independence day.</li>\n<li>United States gained independence on July 4th, 1776.</li>\n<li>Japan does not celebrate an independence day.</li>\n</ul>\n</body>\n</html>"))]

def case_markdown_functions : Entry := .dir [(str!"in.html", .file (bytesOf str!"{{ begin(\"main\") }}\n<ul>\n{{ for($post, \"posts/\", sortby=$post.title, order=\"asc\") }}\n<li>{{ $post.content }}</li>\n{{ end(for) }}\n</ul>\n{{ end(\"main\") }}")),
    (str!"out", .file (bytesOf str!"<html>\n<body>\n<ul>\n<li><p>This is post 1</p></li>\n<li><p>This is post 2</p></li>\n<li><p>This contains functions in markdown.</p></li>\n</ul>\n</body>\n</html>")),
    (str!"posts", .dir [(str!"post_3.md", .file (bytesOf str!"---\ntitle: \"Post 3\"\ndate: \"2022-09-03\"\n---\n\n{{ import($data, \"testcase.json\") }}\n\nThis contains {{ $data.string }}."))]),
    (str!"testcase.json", .file (bytesOf str!"{\n  \"string\": \"functions in markdown\"\n}"))]

/-- The directory with the base and one test case. -/
def repoCases (name : Str) (e : Entry) : Entry := .dir [(str!"t", .dir [(str!"_base", repoBase), (name, e)])]

/-! ### They pass -/

theorem test_conditionals : passes repoSys (repoCases str!"conditionals" case_conditionals) [str!"t"] str!"conditionals" = true := by decide +kernel

theorem test_dateformat : passes repoSys (repoCases str!"dateformat" case_dateformat) [str!"t"] str!"dateformat" = true := by decide +kernel

theorem test_escape : passes repoSys (repoCases str!"escape" case_escape) [str!"t"] str!"escape" = true := by decide +kernel

theorem test_excerpt : passes repoSys (repoCases str!"excerpt" case_excerpt) [str!"t"] str!"excerpt" = true := by decide +kernel

theorem test_for_loop_json_file : passes repoSys (repoCases str!"for_loop_json_file" case_for_loop_json_file) [str!"t"] str!"for_loop_json_file" = true := by decide +kernel

theorem test_for_loop_json_object : passes repoSys (repoCases str!"for_loop_json_object" case_for_loop_json_object) [str!"t"] str!"for_loop_json_object" = true := by decide +kernel

theorem test_for_loop_markdown : passes repoSys (repoCases str!"for_loop_markdown" case_for_loop_markdown) [str!"t"] str!"for_loop_markdown" = true := by decide +kernel

theorem test_for_loop_nested : passes repoSys (repoCases str!"for_loop_nested" case_for_loop_nested) [str!"t"] str!"for_loop_nested" = true := by decide +kernel

theorem test_for_loop_skip_limit : passes repoSys (repoCases str!"for_loop_skip_limit" case_for_loop_skip_limit) [str!"t"] str!"for_loop_skip_limit" = true := by decide +kernel

theorem test_ifdefined : passes repoSys (repoCases str!"ifdefined" case_ifdefined) [str!"t"] str!"ifdefined" = true := by decide +kernel

theorem test_markdown_functions : passes repoSys (repoCases str!"markdown_functions" case_markdown_functions) [str!"t"] str!"markdown_functions" = true := by decide +kernel

end Stuart

