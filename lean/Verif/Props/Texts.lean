import Verif.Model.New
/-
The texts of the model are those of the repository: their lengths and checksums, which were computed from the files.
-/
namespace Stuart

/-- The value of the polynomial with the bytes (plus one) for its coefficients at 257, modulo 1000000007. -/
def checksum (b : Bytes) : Nat := b.foldl (fun a x => (a * 257 + x.toNat + 1) % 1000000007) 0

/-- C72. The files of a new site are those in stuart/tests/basic: content/index.html (233 bytes), content/root.html (326 bytes), static/style.css
(291 bytes), stuart.toml (85 bytes). -/
theorem C72_texts :
    ((bytesOf defaultIndex).length, checksum (bytesOf defaultIndex)) = (233, 57451221) ∧
    ((bytesOf defaultRoot).length, checksum (bytesOf defaultRoot)) = (326, 177154605) ∧
    ((bytesOf defaultStyle).length, checksum (bytesOf defaultStyle)) = (291, 552651306) ∧
    ((bytesOf defaultToml).length, checksum (bytesOf defaultToml)) = (85, 996434100) := by decide +kernel

end Stuart
