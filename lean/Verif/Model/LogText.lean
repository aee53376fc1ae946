import Verif.Model.WinPolicy
/-!
# What is written to the log about each decision

Models the `info!` and `warn!` lines of `log_verdict` (policy/src/policy.rs:238-261), and the `Display`
of requests on both systems.
-/
namespace Iris

/-- `format!("{}", n)` for a signed 64-bit value. -/
def decSigned (n : BitVec 64) : Str :=
  if n.toInt < 0 then '-' :: dec n.toInt.natAbs else dec n.toInt.natAbs

/-- policy/src/linux/policy.rs:99-111 `impl Display for PolicyRequest`. `{:#X}` of a negative number
shows its two's complement. -/
def Request.display : Request → Str
  | .fileOpen path flags => c!"file " ++ path ++ c!" with flags " ++ hexAlt flags.toNat
  | .syscall nb args ip =>
    c!"syscall nb#" ++ decSigned nb ++ c!" with arguments (" ++ hexAlt args.a0.toNat ++ c!", "
      ++ hexAlt args.a1.toNat ++ c!", " ++ hexAlt args.a2.toNat ++ c!", " ++ hexAlt args.a3.toNat ++ c!", "
      ++ hexAlt args.a4.toNat ++ c!", " ++ hexAlt args.a5.toNat ++ c!") at address " ++ hexAlt ip.toNat

/-- policy/src/windows/policy.rs:349-386 `impl Display for PolicyRequest`. -/
def WinRequest.display : WinRequest → Str
  | .fileOpen path access attributes share disposition options ea =>
    c!"file " ++ path ++ c!" with access_mask " ++ hexAlt access.toNat ++ c!" (sharing " ++ hexAlt share.toNat
      ++ c!") (attributes " ++ hexAlt attributes.toNat ++ c!") (create_disposition "
      ++ hexAlt disposition.toNat ++ c!" and create_options " ++ hexAlt options.toNat ++ c!")"
      ++ (if ea.isEmpty then [] else c!"with " ++ dec ea.length ++ c!" bytes of extended attributes")
  | .regKeyOpen path access options create =>
    c!"registry key " ++ path ++ c!" with access_mask " ++ hexAlt access.toNat
      ++ (if create then
            c!", creating it with options " ++ hexAlt options.toNat ++ c!" if it does not exist"
          else [])

/-- The severity of a record of the `log` crate. -/
inductive LogLevel | info | warn
deriving DecidableEq, Repr

/-- A record handed to the `log` crate. -/
structure LogRecord where
  level : LogLevel
  message : Str
deriving DecidableEq, Repr

/-- policy/src/policy.rs:239-261: the record of a verdict on a request displayed as `request`. -/
def verdictRecord (request : Str) : Verdict → LogRecord
  | .granted => ⟨.info, c!"Worker granted access to " ++ request⟩
  | .delegationNotSupported why =>
    ⟨.warn, c!"Worker tried to access " ++ request ++ c!" but delegation is not supported: " ++ why⟩
  | .deniedByPolicy why =>
    ⟨.warn, c!"Worker tried to access " ++ request ++ c!" but it is not allowed by its policy: " ++ why⟩
  | .invalidRequestParameters argName why =>
    ⟨.warn, c!"Worker tried to access " ++ request ++ c!" but \"" ++ argName ++ c!"\" was unexpected: " ++ why⟩

/-- policy/src/linux/policy.rs:28-34: the record written by `evaluate_request`, before the verdict is
replaced in audit mode. -/
def Policy.evaluateRecord [Target] (p : Policy) (req : Request) : LogRecord :=
  verdictRecord req.display (match req with
    | .fileOpen path flags => p.checkFileOpen path flags
    | .syscall _ _ _ => .delegationNotSupported c!"unsupported system call")

/-- policy/src/windows/policy.rs:89-114: the same on Windows. -/
def Policy.winEvaluateRecord (debug : Bool) (p : Policy) (req : WinRequest) : LogRecord :=
  verdictRecord req.display (match req with
    | .fileOpen path access attributes share disposition options ea =>
      p.winCheckFileOpen debug path access attributes share disposition options ea
    | .regKeyOpen path access options create => p.winCheckRegKeyOpen path access options create)

end Iris
