import Verif.Spec.Unknown
import Verif.Spec.PacketData
/-!
# Specification: data that no part of a report is made from

The contents of boxes of unknown type and of intellectual property boxes, what follows the identifier in a UUID box
that is not XMP, and what is not headers and markers in codestreams; the contents of TLM, PPM and PPT segments, and
marker segments that are not among those validated.
-/

namespace Jpy.Spec

/-- Two headers with the same segments, but for the contents of TLM, PPM and PPT segments and for segments that are not
validated: these may be in only one of the headers. Nothing is said about positions. -/
inductive UnseenSegs (validated : List Bytes) : List FoundSeg → List FoundSeg → Prop
  | nil : UnseenSegs validated [] []
  | same {s s' m c ss ss'} : UnseenSegs validated ss ss' → UnseenSegs validated (⟨s, m, c⟩ :: ss) (⟨s', m, c⟩ :: ss')
  | unread {s s' m c c' ss ss'} : m ∈ [TLM, PPM, PPT] → UnseenSegs validated ss ss' →
      UnseenSegs validated (⟨s, m, c⟩ :: ss) (⟨s', m, c'⟩ :: ss')
  | more {x ss ss'} : x.marker ∉ validated → UnseenSegs validated ss ss' → UnseenSegs validated ss (x :: ss')
  | less {x ss ss'} : x.marker ∉ validated → UnseenSegs validated ss ss' → UnseenSegs validated (x :: ss) ss'

/-- Two tile-parts with the same SOT segment and related headers. -/
def UnseenPart (b b' : Bytes) (t : TilePartInfo) (off' : Nat) : Prop :=
  t.At b ∧ sub b' off' 12 = sub b t.start 12 ∧ ∃ ss k ss' k', SegsTo b SOD (t.start + 12) ss (some k) ∧
    SegsTo b' SOD (off' + 12) ss' (some k') ∧ UnseenSegs tilePartSegments ss ss'

/-- Two chains of such tile-parts, followed by the same markers. -/
inductive UnseenParts (b b' : Bytes) : Nat → Nat → Prop
  | done {off off'} : sub b off 2 ≠ SOT → sub b' off' 2 = sub b off 2 → UnseenParts b b' off off'
  | last {t off'} : UnseenPart b b' t off' → t.length = 0 → UnseenParts b b' t.start off'
  | step {t off'} : UnseenPart b b' t off' → t.length ≠ 0 →
      sub b' (off' + t.length) 2 = sub b (t.start + t.length) 2 →
      UnseenParts b b' (t.start + t.length) (off' + t.length) → UnseenParts b b' t.start off'

/-- Two codestreams with the same SIZ segment, related main headers and tile-parts, and the same last two bytes. -/
def UnseenCodestream (b b' : Bytes) : Prop :=
  ∃ siz csiz main main' sot sot', sub b 0 2 = SOC ∧ sub b' 0 2 = SOC ∧ MainHeader b siz csiz main (some sot) ∧
    MainHeader b' siz csiz main' (some sot') ∧ UnseenSegs mainSegments main main' ∧ UnseenParts b b' sot sot' ∧
    sub b' (b'.length - 2) 2 = sub b (b.length - 2) 2

mutual
/-- Two boxes of the same type that differ only in such data. The place of the box in the file may differ, and the way in
which its length is stored. -/
inductive UnseenIn : FoundBox → FoundBox → Prop
  | same {s s' t p} : UnseenIn ⟨s, t, p⟩ ⟨s', t, p⟩
  | unknown {s s' t p p'} : t ∉ knownBoxTypes → t ∉ knownMarkers → UnseenIn ⟨s, t, p⟩ ⟨s', t, p'⟩
  | ipr {s s' t p p'} : t = ascii "jp2i" → UnseenIn ⟨s, t, p⟩ ⟨s', t, p'⟩
  | uuid {s s' t p p'} : t = ascii "uuid" → p'.take 16 = p.take 16 → p.take 16 ≠ xmpUuid →
      (16 < p'.length ↔ 16 < p.length) → UnseenIn ⟨s, t, p⟩ ⟨s', t, p'⟩
  | codestream {s s' t p p'} : t = ascii "jp2c" → SameHeaders p p' → UnseenIn ⟨s, t, p⟩ ⟨s', t, p'⟩
  | segments {s s' t p p'} : t = ascii "jp2c" → UnseenCodestream p p' → UnseenIn ⟨s, t, p⟩ ⟨s', t, p'⟩
  | super {s s' t p p' hs hs'} : t ∈ [ascii "jp2h", ascii "res ", ascii "uinf"] → Boxes p hs → Boxes p' hs' →
      Unseen hs hs' → UnseenIn ⟨s, t, p⟩ ⟨s', t, p'⟩
/-- The same for a list of boxes. -/
inductive Unseen : List FoundBox → List FoundBox → Prop
  | nil : Unseen [] []
  | cons {x x' bs bs'} : UnseenIn x x' → Unseen bs bs' → Unseen (x :: bs) (x' :: bs')
end

/-- Two files that differ only in such data and, if they consist of boxes, perhaps in the form of the lengths of the
boxes. -/
def UnseenData (fmt : Format) (f f' : Bytes) : Prop :=
  match fmt with
  | .j2c | .jhc => SameHeaders f f' ∨ UnseenCodestream f f'
  | _ => ∃ bs bs', Boxes f bs ∧ Boxes f' bs' ∧ Unseen bs bs'

end Jpy.Spec
