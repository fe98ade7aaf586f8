import Verif.Launch.Model
import Verif.Whole.DetectSpec
import Verif.Robust.Props

/-
Specification vocabulary for the launched program.
-/
namespace Verif.Launch

open Verif Verif.Geo

/-- `Session o eig rnd srv P log a`: the program was launched with these parameters, and a series of successful updates
followed, which satisfy `P`; `log` lists them. -/
inductive Session (o : Loop.Overread) (eig : NDT.Eig) (rnd : ℝ → ℝ) (srv : Server) (P : Step → Prop) :
    List Whole.Entry → Alg → Prop
  | start {n a} : launch eig rnd srv = .ok (n, a) → Session o eig rnd srv P [] a
  | step {log a d out a'} : Session o eig rnd srv P log a → P d → Whole.AdmissibleOwn a.state (d.outer a) →
      update o eig d a = .ok (out, a') → Session o eig rnd srv P (log ++ [⟨out.1, out.2, d.scan⟩]) a'

/-- The number given under this name, or the default, in single precision. -/
def number (rnd : ℝ → ℝ) (srv : Server) (name : String) (default : ℝ) : ℝ :=
  rnd (match srv.num name with
    | some v => v
    | none => default)

/-- The frame name given under this name, or the default, with the prefix if there is one. -/
def frameName (srv : Server) (name default : String) : String :=
  let v := match srv.str name with
    | some v => v
    | none => default
  match srv.tfPrefix with
  | none => v
  | some "" => v
  | some p => p ++ "/" ++ v

/-- The transform was found by one of the registrations of the match, and its verification score is at least the
threshold. -/
def Scored (threshold : ℝ) (m : Matching) (guess t : Trans) : Prop :=
  ∃ r, Robust.Found m.env (convertFromTransform guess) r ∧ t = convertToTransform r ∧ threshold ≤ m.env.proof r

/-- The loop constraint `c`, in the poses and constraints `b`, is one that the parameters allow: it leads from the
newest frame to an older one, nearer than the maximum and reached over at least the minimum travelled distance
(beginning with the content of a variable that is never initialised, `junk`), and its transform comes from a match of
these two frames that reached the threshold. -/
def Allowed (loopMin loopMax threshold : ℝ) (d : Step) (b : Slam.Book Algo.Frame) (c : ℕ × ℕ × Pose × Slam.EKind) : Prop :=
  c.1 = b.poses.length - 1 ∧ c.2.1 < c.1 ∧ c.2.2.2 = .loop ∧
  ∃ p q, b.poses[c.1]? = some p ∧ b.poses[c.2.1]? = some q ∧
    dist (Loop.place p.1) (Loop.place q.1) < loopMax ∧ loopMin ≤ d.junk + Loop.travelled b c.2.1 ∧
    ∃ k t, Scored threshold (d.matching k c.2.1 c.1) (Loop.turnOnly p.1 q.1) t ∧ c.2.2.1 = getPoseFromTransform t

end Verif.Launch
