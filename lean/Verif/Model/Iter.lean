import Verif.Model.Write
/-! # Model of `Display` for `Decoded`, `AsJson` and `JsonString` on any formatter (src/string.rs) -/

namespace JustJson
section
variable [Arch]

/-- `Display for Decoded`, string.rs:740-748, with fuel: `f.write_char(ch)?` for each character of a clone. -/
def Decoded.fmtFuel (F : Writer) : Nat → Decoded → F.W → Res (F.W × Bool)
  | 0, _, _ => .panic .fuel
  | n + 1, d, w =>
    match d.next with
    | .panic p => .panic p
    | .ok none => .ok (w, true)
    | .ok (some (c, d')) =>
      match F.writeChar w c with
      | (w', true) => Decoded.fmtFuel F n d' w'
      | (w', false) => .ok (w', false)

/-- `Display for Decoded`, string.rs:740-748: each `next` consumes at least one of the remaining characters. -/
def Decoded.fmt (F : Writer) (d : Decoded) (w : F.W) : Res (F.W × Bool) := d.fmtFuel F (d.chars.length + 1) w

/-- `Display for JsonString`, string.rs:517-521. -/
def JsonString.fmt (F : Writer) (j : JsonString) (w : F.W) : Res (F.W × Bool) := (Decoded.new j.source j.info).fmt F w

/-- `Display for AsJson`, string.rs:757-765, with fuel. -/
def AsJson.fmtFuel (F : Writer) : Nat → AsJson → F.W → Res (F.W × Bool)
  | 0, _, _ => .panic .fuel
  | n + 1, a, w =>
    match a.next with
    | .panic p => .panic p
    | .ok none => .ok (w, true)
    | .ok (some (c, a')) =>
      match F.writeChar w c with
      | (w', true) => AsJson.fmtFuel F n a' w'
      | (w', false) => .ok (w', false)

/-- `Display for AsJson`, string.rs:757-765: a remaining character yields at most six, a begun escape at most five. -/
def AsJson.fmt (F : Writer) (a : AsJson) (w : F.W) : Res (F.W × Bool) := a.fmtFuel F (6 * a.chars.length + 7) w

end
end JustJson
