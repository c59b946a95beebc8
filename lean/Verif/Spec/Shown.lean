import Verif.Model.Serve
import Verif.Spec.Source
/-
What a browser gets to see from the development server.
-/
namespace Stuart.Spec

section
variable {α : Type} (M : Machine) (send : α → α × Bool)

/-- The development server, with these connections to browsers, as time goes by: it treats an event and goes on, and in
between anything may happen on the disk and browsers may come and go. -/
inductive Serving (c0 : Context) : Context → Host → List α → Prop
  | start (s : Host) (streams : List α) : Serving c0 c0 s streams
  | meanwhile {c : Context} {s : Host} {streams : List α} (s' : Host) (streams' : List α) : Serving c0 c s streams →
      Serving c0 c s' streams'
  | event {c c' : Context} {s s' : Host} {streams streams' : List α} {path : Option Path} {done : Bool} :
      Serving c0 c s streams → onEvent M send path c s streams = (c', s', streams', .ok done) → Serving c0 c' s' streams'

end

/-- What a browser gets for a page with these bytes: the page, with the script that reloads it before its first
`</body>`. -/
inductive Reloading (js : Bytes) : Bytes → Bytes → Prop
  | with_ {pre post : Bytes} : (∀ pre' post', pre ++ bytesOf str!"</body>" ++ post = pre' ++ bytesOf str!"</body>" ++ post' →
      pre.length ≤ pre'.length) →
      Reloading js (pre ++ bytesOf str!"</body>" ++ post)
        (pre ++ (bytesOf str!"<script>" ++ js ++ bytesOf str!"</script>") ++ bytesOf str!"</body>" ++ post)
  | without {b : Bytes} : (∀ pre post, b ≠ pre ++ bytesOf str!"</body>" ++ post) → Reloading js b b

end Stuart.Spec
