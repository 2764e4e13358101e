import Verif.Spec.DirHistory
/-
Histories of a ring log next to other users of the file system.
-/
namespace Verif.Spec
open Verif Verif.Vlfs

/-- the files of a type -/
def ofType (typ : Nat) (es : List FileEntry) : List FileEntry := es.filter fun e => e.typ == typ

/-- the files of all other types -/
def notOfType (typ : Nat) (es : List FileEntry) : List FileEntry := es.filter fun e => e.typ != typ

/-- `RingRun typ cap fs es ids r`: a ring log `r` of the type with `cap` segments is running on the file system `fs`, which lists `es`; the ids `ids` were handed
out so far. It was started on any reachable file system (any earlier history, including earlier rings of the type, restarts and power losses).
Other users do not create or remove files of this type while it runs. -/
inductive RingRun (typ cap : Nat) : FS → List FileEntry → List Nat → Ring → Prop
  | start {fs fs' : FS} {es es' : List FileEntry} {ids : List Nat} {r1 r2 : Nat} {r : Ring} (hr : Reach fs es ids) (hok : countersOk fs)
      (hcap : es.length < 2518) (ht : typ < 0x4000) (h : Ring.new fs typ cap r1 r2 = (.ok r, fs')) (hl : lists fs' es') :
      RingRun typ cap fs' es' (r.current.id :: ids) r
  /-- the ring is about to be written to -/
  | write {fs : FS} {es : List FileEntry} {ids : List Nat} {r : Ring} (h : RingRun typ cap fs es ids r) : RingRun typ cap fs es ids r.getWriter.2
  /-- the timer of the ring asks for a new segment -/
  | segment {fs fs' : FS} {es es' : List FileEntry} {ids : List Nat} {r1 r2 : Nat} {r r' : Ring} (hr : RingRun typ cap fs es ids r) (hok : countersOk fs)
      (hcap : es.length < 2518) (h : r.createNewSegment fs r1 r2 = (.ok r', fs')) (hl : lists fs' es') :
      RingRun typ cap fs' es' (if r.dirty then r'.current.id :: ids else ids) r'
  /-- the same for `RingDeltaLogger`, which does not look at the dirty flag -/
  | rotate {fs fs' : FS} {es es' : List FileEntry} {ids : List Nat} {r1 r2 : Nat} {r r' : Ring} (hr : RingRun typ cap fs es ids r) (hok : countersOk fs)
      (hcap : es.length < 2518) (h : r.rotate fs r1 r2 = (.ok r', fs')) (hl : lists fs' es') : RingRun typ cap fs' es' (r'.current.id :: ids) r'
  /-- others create or remove files of other types, or files of this type get their first sector -/
  | call {fs fs' : FS} {es es' : List FileEntry} {ids new : List Nat} {r : Ring} (hr : RingRun typ cap fs es ids r) (hc : Call fs es fs' es' new)
      (hok : countersOk fs) (hkeep : (ofType typ es').map (·.id) = (ofType typ es).map (·.id)) : RingRun typ cap fs' es' (new ++ ids) r
  | opened {fs : FS} {es : List FileEntry} {ids : List Nat} {r : Ring} (hr : RingRun typ cap fs es ids r) (l : List Nat) :
      RingRun typ cap { fs with at' := { fs.at' with opened := l } } es ids r
  | other {fs fs' : FS} {es : List FileEntry} {ids : List Nat} {r : Ring} (hr : RingRun typ cap fs es ids r) (ha : fs'.at' = fs.at')
      (hf : ∀ a, a < 4 * 32768 → fs'.dev.flash a = fs.dev.flash a) (hm : aheadValid fs'.mng) : RingRun typ cap fs' es ids r

end Verif.Spec
