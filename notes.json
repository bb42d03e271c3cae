{
 "C09": {
  "status": "partial",
  "note": "The full claim is false of the code: C09_violated_shift_stuck exhibits a reachable history after which the host keeps seeing Shift pressed although the report is empty (hid.c:60/87 overwrite the stale flag; matrix.c removes the usage of both layers). Proved: the claim for the consumer report, and for the keyboard report under the condition stated in C09_reaches_host_partial."
 },
 "C23": {
  "status": "partial",
  "note": "The full claim is false of the code: for (nearly) antiparallel directions fromAlignment returns a mirroring that does not map source to target (C23_antiparallel_violated, C23_not_always). C23_aligns_partial proves it for all other pairs, C23_raises_iff characterises the exceptions."
 },
 "C32": {
  "status": "proved",
  "note": "The boundary claim is proved for quads satisfying Spec.GoodQuad (no sliver triangles, not folded). C32_folded_violated shows that the condition is needed: for a folded quad the code adds a triangle whose boundary is not the quad's."
 },
 "C105": {
  "status": "proved",
  "note": "C105_sane and the theorems of success hold without assumptions about the plan. C105_body, C105_floor and C105_palm_watertight speak about each plan that is made from the shipped dimensions; that the plan itself can be made is not shown for the shipped layout (Props/Whole.lean shows it for a smaller layout)."
 }
}