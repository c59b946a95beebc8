import Verif.Model.Cli
/-
The tests of the command line program: stuart/src/test.rs.
-/
namespace Stuart

/-- How a test ends: it passes, it ends the whole process (test.rs:26), or it panics (which the test harness reports). -/
inductive TestEnd where
  | passed | exited | panicked
deriving DecidableEq, Repr

/-- test.rs:80-85 `cleanup`; what goes wrong is ignored. -/
def testCleanup (dir : Path) (w : World) : World :=
  ((w.step (.clear (dir ++ [str!"dist"]))).1.step (.removeFile (dir ++ [str!"metadata.json"]))).1

/-- test.rs:9-46 `test!`, with test.rs:65-78 `full_build`: the manifest is given by its absolute path, the output is called `dist`
(main.rs:49-66). The check of the contents of the page, which includes the trimming in line 43, is a function of its text. Simplification: that the command
line is understood as this call of `build` is in `C84`. -/
def cliTest (M : Machine) (L : Loader) (cwd dir : Path) (check : Str → Bool) (s : Host) : Host × TestEnd :=
  match cmdBuild M L cwd (pathStr (dir ++ [str!"stuart.toml"])) str!"dist" s with
  | (s', .panic _) => (s', .panicked)
  | (s', .err _) => ({ s' with world := testCleanup dir s'.world }, .exited)
  | (s', .ok ()) =>
    match s'.world.disk.at (dir ++ [str!"dist", str!"index.html"]) with
    | some (.file b) =>
      match fromUtf8 b with
      | some t => ({ s' with world := testCleanup dir s'.world }, if check t then .passed else .panicked)
      | none => (s', .panicked)
    | _ => (s', .panicked)

end Stuart
