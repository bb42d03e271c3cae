import Verif.Spec.Shipped
import Verif.Props.BodyMake
import Verif.Props.Layout
import Verif.Props.FloorMake
import Verif.Props.PalmFit
import Verif.Props.PalmOrderly
import Verif.Props.Hitch
import Verif.Props.SupportShape
import Verif.Props.CableShape
import Verif.Props.HexGrid
import Verif.Props.EncoderShape
import Verif.Props.BracketRoof
import Verif.Props.Plan
import Verif.Props.FloorMeets
import Verif.Props.CableApart
import Verif.Props.BracketZip

/-! The shipped configuration has sensible dimensions. -/

namespace Chrumm.Part
open Geo Geo.Spec Part.Spec

theorem deg_bounds : 3.141 < Real.pi ∧ Real.pi < 3.142 := ⟨by have := Real.pi_gt_d4; norm_num at this ⊢; linarith, by have := Real.pi_lt_d4; norm_num at this ⊢; linarith⟩

theorem cos_deg {a : ℝ} (h0 : 0 ≤ a) (h1 : a ≤ 12) : 97 / 100 ≤ Real.cos (deg a) := by
  obtain ⟨p1, p2⟩ := deg_bounds
  norm_num at p1 p2
  have h := Real.one_sub_sq_div_two_le_cos (x := deg a)
  have h2 : deg a ≤ 21 / 100 := by unfold deg; nlinarith
  have h3 : 0 ≤ deg a := by unfold deg; positivity
  nlinarith

theorem shipped_quality : SaneQuality shippedQuality := by
  obtain ⟨p1, p2⟩ := deg_bounds
  norm_num at p1 p2
  constructor <;> norm_num [shippedQuality, deg] <;> linarith

theorem shipped_thread : SaneThread shippedBoss (some shippedSupport) := by
  obtain ⟨p1, p2⟩ := deg_bounds
  norm_num at p1 p2
  constructor <;> norm_num [shippedBoss, shippedSupport, deg]
  right
  constructor <;> linarith

theorem shipped_head : SaneHead shippedFloor.outerHeight shippedBoss := by
  constructor <;> norm_num [shippedBoss, shippedFloor]

theorem deg_sixty : deg 60 = Real.pi / 3 := by unfold deg; ring
theorem deg_thirty : deg 30 = Real.pi / 6 := by unfold deg; ring
theorem deg_neg (a : ℝ) : deg (-a) = -deg a := by unfold deg; ring

theorem sqrt_three : Real.sqrt 3 < 1.8 ∧ 1.7 < Real.sqrt 3 :=
  ⟨by rw [Real.sqrt_lt' (by norm_num)]; norm_num, by rw [Real.lt_sqrt (by norm_num)]; norm_num⟩

theorem shipped_clip : activeClip shippedSwitch 4 = some ⟨8, 0.9, 1.4, deg 60, false⟩ := by
  unfold activeClip shippedSwitch
  rw [Option.filter_some, if_pos]
  simp
  norm_num

theorem shipped_hole : SaneHole (holeWidth shippedSwitch 4) (holeDepth shippedSwitch 4) 4 shippedSwitch.entryChamfer
    (activeClip shippedSwitch 4) := by
  obtain ⟨s1, s2⟩ := sqrt_three
  norm_num at s1 s2
  have e : isSideways shippedSwitch 4 = false := by unfold isSideways; rw [shipped_clip]; rfl
  have w : holeWidth shippedSwitch 4 = 14.1 := by unfold holeWidth; rw [e]; rfl
  have d : holeDepth shippedSwitch 4 = 13.9 := by unfold holeDepth; rw [e]; rfl
  have c : shippedSwitch.entryChamfer = 0.4 := rfl
  rw [w, d, c, shipped_clip]
  refine ⟨by norm_num, by norm_num, by norm_num, by norm_num, ?_⟩
  intro c hc
  obtain rfl := Option.some.inj hc
  constructor <;> dsimp only
  · norm_num
  · rw [deg_sixty, Real.tan_pi_div_three]
    norm_num
    linarith
  · norm_num
  · norm_num
  · norm_num
  · norm_num
  · rw [deg_sixty, Real.cos_pi_div_three]
    norm_num

theorem shipped_encoder : SaneEncoder shippedEncoder := by
  constructor <;> norm_num [shippedEncoder]

theorem shipped_steep (g : Group) : 94 / 100 ≤ g.steepness shippedBody := by
  have h : 97 / 100 ≤ Real.cos (g.angle shippedBody) := by
    cases g <;> exact cos_deg (by norm_num) (by norm_num)
  have h2 : 97 / 100 ≤ Real.cos shippedBody.tiltAngle := by
    show 97 / 100 ≤ Real.cos (deg (-3))
    rw [deg_neg, Real.cos_neg]
    exact cos_deg (by norm_num) (by norm_num)
  unfold Group.steepness
  nlinarith

/-- The shipped dimensions of the body are sensible. -/
theorem shipped_body : SaneBody shipped := by
  refine ⟨shipped_quality, shipped_hole, shipped_thread, fun g => ?_, by norm_num [shipped, shippedBody], by norm_num [shipped, shippedBody], ?_⟩
  · have h := shipped_steep g
    have h2 : Real.sqrt (1 - g.steepness shippedBody ^ 2) ≤ 1 := by
      rw [Real.sqrt_le_left (by norm_num)]
      nlinarith
    refine ⟨by show 0 < g.steepness shippedBody; linarith, ?_⟩
    show Real.sqrt (1 - g.steepness shippedBody ^ 2) * (4.2 : ℝ) ≤ g.steepness shippedBody * ((6.5 : ℝ) - 1 - 1 / 1000)
    norm_num
    nlinarith
  · intro ec hec
    obtain rfl := Option.some.inj hec
    exact shipped_encoder

theorem shipped_bumper : ∀ c ∈ shipped.bumper, 1 ≤ c.diameter ∧ 1 / 1000 ≤ |c.height| := by
  intro c hc
  obtain rfl := Option.some.inj hc
  norm_num

/-- The shipped dimensions of the floor are sensible. -/
theorem shipped_floor : SaneFloor shipped := ⟨shipped_quality, shipped_head, shipped_bumper⟩

/-- The shipped dimensions of the palm rest are sensible. -/
theorem shipped_palm : SanePalm shipped := ⟨shipped_quality, shipped_thread, shipped_bumper⟩

theorem shipped_roof {inset : ℝ} (h0 : 0 ≤ inset) (h1 : inset ≤ 5) : SaneRoof shippedPalm inset := by
  obtain ⟨p1, p2⟩ := deg_bounds
  norm_num at p1 p2
  refine ⟨Or.inr ?_, ?_, ?_⟩
  · norm_num [shippedPalm]
    linarith
  · show |deg 6| < _
    unfold deg
    rw [abs_lt]
    constructor <;> linarith
  · have h : shippedPalm.roofFillet = 6 := rfl
    have h' : shippedPalm.depth = 80 := rfl
    rw [h, h', max_eq_right (by linarith)]
    norm_num
    linarith

/-- The shipped dimensions of the palm rest are sensible if the front of the keyboard is at least 60 mm wide. -/
theorem shipped_rest {width : ℝ} (hw : 60 ≤ width) : SaneRest shipped shippedPalm width := by
  obtain ⟨p1, p2⟩ := deg_bounds
  norm_num at p1 p2
  have hs : Real.sin (deg 7.2) ≤ 13 / 100 := by
    have h := Real.sin_le (x := deg 7.2) (by unfold deg; positivity)
    have : deg 7.2 ≤ 13 / 100 := by unfold deg; norm_num; linarith
    linarith
  have hc := cos_deg (a := 7.2) (by norm_num) (by norm_num)
  constructor
  · exact lt_of_lt_of_le (by norm_num) shipped_quality.angle
  · norm_num [shipped, shippedQuality]
  · exact shipped_roof le_rfl (by norm_num)
  · norm_num [shippedPalm]
  · norm_num [shippedPalm]
  · show |deg 3| ≤ _
    unfold deg
    rw [abs_le]
    constructor <;> linarith
  · show |deg 7.2| ≤ _
    unfold deg
    norm_num
    rw [abs_le]
    constructor <;> linarith
  · norm_num [shipped, shippedFloor]
  · norm_num [shippedPalm]
  · norm_num [shipped, shippedFloor, shippedPalm]
  · show (15 : ℝ) + 3 + (1.5 + 80 - 15 - 3) * Real.sin (deg 7.2) < width / 2 * Real.cos (deg 7.2)
    norm_num
    norm_num at hs hc
    nlinarith
  · intro g hg
    obtain rfl := Option.some.inj hg
    norm_num
  · intro c hc
    obtain rfl := Option.some.inj hc
    refine ⟨by norm_num, shipped_quality, by norm_num [shipped, shippedQuality]⟩

/-- The shipped dimensions of the screw holes are sensible. -/
theorem shipped_screw : SaneScrew shipped := by
  refine ⟨shipped_quality, ?_, ?_, ?_, ?_, ?_⟩
  · norm_num [shipped, shippedBoss, shippedQuality]
  · norm_num [shipped, shippedBoss, shippedQuality]
  · norm_num [shipped, shippedBoss, shippedQuality]
  · norm_num [shipped, shippedBoss, shippedQuality]
  · intro s hs
    obtain rfl := Option.some.inj hs
    show deg 45 < _
    unfold deg
    linarith [Real.pi_pos]

/-- The shipped dimensions of the cable are sensible, if the wall is at least 1.6 mm thick. -/
theorem shipped_cable {wall : ℝ} (hw : 1.6 ≤ wall) : SaneCable shippedCable wall ∧ FineCable shippedQuality shippedCable wall := by
  have hpi := Real.pi_pos
  obtain ⟨p1, p2⟩ := deg_bounds
  norm_num at p1 p2 hw
  constructor
  · constructor <;> norm_num [shippedCable] <;> (try unfold deg) <;> linarith
  · constructor
    · exact lt_of_lt_of_le (by norm_num) shipped_quality.angle
    · norm_num [shippedQuality]
    · norm_num [shippedCable]
    · norm_num [shippedCable]
    · right
      norm_num [shippedCable]
      linarith
    · show deg 30 ≤ _
      unfold deg
      linarith
    · show 1 / 1000 ≤ ((4 : ℝ) - 1) / Real.sqrt 2 + Real.sin (deg 30) * 1
      rw [deg_thirty, Real.sin_pi_div_six]
      have : 0 ≤ ((4 : ℝ) - 1) / Real.sqrt 2 := by positivity
      linarith
    · intro r hr
      simp only [List.mem_cons, List.not_mem_nil, or_false] at hr
      obtain rfl | rfl := hr <;> norm_num [shippedCable, shippedQuality, deg] <;> linarith

/-- The shipped dimensions of the supports are sensible. -/
theorem shipped_support : SaneSupport 14.1 13.9 4 shippedSupport := by
  constructor <;> norm_num [shippedSupport]

/-- The shipped dimensions of the brackets are sensible. -/
theorem shipped_bracket : SaneBracket shippedQuality shippedBracket := by
  obtain ⟨s1, s2⟩ := sqrt_three
  norm_num at s1 s2
  constructor
  · exact lt_of_lt_of_le (by norm_num) shipped_quality.angle
  all_goals norm_num [shippedQuality, shippedBracket, deg_thirty]
  linarith

/-- The shipped dimensions of the bracket for the cable are sensible. -/
theorem shipped_zip : SaneZip shippedQuality shippedBracket shippedCable := by
  have hpi := Real.pi_pos
  constructor <;> norm_num [shippedQuality, shippedBracket, shippedCable, deg_thirty]
  · positivity
  · linarith

/-- The shipped dimensions of the bracket of the floor are sensible. -/
theorem shipped_floorBracket : SaneFloorBracket shippedQuality shippedBracket ⟨0, 0, -shippedFloor.outerHeight + shippedFloor.innerHeight⟩
    ⟨0, 0, shippedFloor.lipHeight⟩ := by
  constructor
  · exact lt_of_lt_of_le (by norm_num) shipped_quality.angle
  all_goals norm_num [shippedQuality, shippedBracket, shippedFloor, deg_thirty]

theorem shippedBracket_eq : shippedBracket = exBracket := by
  unfold shippedBracket exBracket
  rw [deg_thirty]
  congr 1 <;> norm_num

theorem shipped_room : CableRoom shippedBracket shippedCable shippedBracket.backCornerExtraMargin := by
  have h := exCable_room (h := 9 / 5) le_rfl
  have e : shippedBracket.backCornerExtraMargin = 5 / 10 := by norm_num [shippedBracket]
  rw [e, shippedBracket_eq]
  convert h using 2
  all_goals norm_num [shippedCable, exampleCable, deg_thirty]

/-- **C105** The shipped dimensions are sensible: they meet the assumptions of the claims about the body, the floor, the palm
rest, the screws, the supports, the brackets and the cable. -/
theorem C105_sane : SaneBody shipped ∧ SaneFloor shipped ∧ SanePalm shipped ∧ SaneScrew shipped ∧
    (∀ width, 60 ≤ width → SaneRest shipped shippedPalm width) ∧
    SaneSupport (holeWidth shippedSwitch 4) (holeDepth shippedSwitch 4) 4 shippedSupport ∧ SaneBracket shippedQuality shippedBracket ∧
    SaneZip shippedQuality shippedBracket shippedCable ∧ ∀ wall, 1.6 ≤ wall → SaneCable shippedCable wall ∧ FineCable shippedQuality shippedCable wall := by
  have e : isSideways shippedSwitch 4 = false := by unfold isSideways; rw [shipped_clip]; rfl
  refine ⟨shipped_body, shipped_floor, shipped_palm, shipped_screw, fun _ h => shipped_rest h, ?_, shipped_bracket, shipped_zip, fun _ h => shipped_cable h⟩
  unfold holeWidth holeDepth
  rw [e]
  exact shipped_support

theorem shipped_taper : ∀ a ∈ shipped.taper, a < Real.pi := by
  intro a ha
  obtain rfl := Option.some.inj ha
  show deg 45 < _
  unfold deg
  linarith [Real.pi_pos]

/-- **C105** The hole for a key can be made from the shipped dimensions, and is closed. -/
theorem C105_key : ∃ f, KeyFactory.make shippedSwitch 4 = .ok f ∧ Closes f.triangles (cycPairs f.roofHoleO ++ cycPairs f.roofHoleI) := by
  obtain ⟨f, hf⟩ := C77_succeeds shippedSwitch 4 (by
    rw [shipped_clip]
    intro c hc
    obtain rfl := Option.some.inj hc
    dsimp only
    rw [deg_sixty, Real.cos_pi_div_three]
    norm_num)
  exact ⟨f, hf, C77_factory shippedSwitch 4 f shipped_hole hf⟩

/-- **C105** The layout can be made from the shipped dimensions. -/
theorem C105_layout : ∃ l, Layout.make shippedLayout shippedSwitch 4 = .ok l := by
  have e : shippedLayout.fingerStaggers = shippedStaggers := rfl
  apply C51_succeeds
  · intro c hc
    obtain rfl := Option.some.inj hc
    dsimp only
    rw [deg_sixty, Real.cos_pi_div_three]
    norm_num
  · intro row hr
    rw [e] at hr
    simp only [shippedStaggers, List.mem_cons, List.not_mem_nil, or_false] at hr
    obtain rfl | rfl | rfl | rfl | rfl := hr <;> rfl
  · have : ∀ row ∈ shippedLayout.fingerStaggers, row.map List.length = [2, 4, 4, 3] := by
      intro row hr
      rw [e] at hr
      simp only [shippedStaggers, List.mem_cons, List.not_mem_nil, or_false] at hr
      obtain rfl | rfl | rfl | rfl | rfl := hr <;> rfl
    intro row hr row' hr'
    rw [this row hr, this row' hr']
  · rfl
  · rfl
  · intro side
    cases side <;> exact ⟨_, rfl, le_rfl⟩
  · intro row hr side
    rw [e] at hr
    simp only [shippedStaggers, List.mem_cons, List.not_mem_nil, or_false] at hr
    obtain rfl | rfl | rfl | rfl | rfl := hr <;> cases side <;> simp [staggerAt]
  · intro f side
    cases side <;> simp [lastAlnumCol, initFingers, shippedLayout, shippedStaggers, fingerGroups, fingerKey, Stagger.toList]

/-- **C105** The support can be made from the shipped dimensions, and is watertight. -/
theorem C105_support : ∃ ps, supportPieces shippedQuality (holeWidth shippedSwitch 4) (holeDepth shippedSwitch 4) 4 shippedSupport = .ok ps ∧
    (∃ tss, List.Forall₂ Piece.Meshes ps tss) ∧ ∀ tss, List.Forall₂ Piece.Meshes ps tss → Watertight tss.flatten :=
  C58_solid shipped_quality (by norm_num [shippedQuality]) C105_sane.2.2.2.2.2.1

/-- **C105** The hole for the cable can be made from the shipped dimensions, anywhere in a wall of at least 1.6 mm. -/
theorem C105_cable (bracket : ℝ) (pos : Vec) {wall : ℝ} (hw : 1.6 ≤ wall) :
    ∃ c, Cable.make shippedQuality shipped.taper shippedCable bracket pos wall = .ok c := by
  have hq : 0 < shippedQuality.maxChordAngle := lt_of_lt_of_le (by norm_num) shipped_quality.angle
  exact C99_succeeds (shipped_cable hw).1 hq (by norm_num [shippedQuality]) (by norm_num [shippedQuality, shippedCable])
    (by norm_num [shippedQuality, shippedCable]) (by norm_num [shippedQuality, shippedCable]) shipped_taper

/-- **C105** The bracket at the back wall, with the cable's ziptie, can be made from the shipped dimensions below each roof that does not rise by more than
45 degrees. -/
theorem C105_bracket {a b : Vec} (c : Vec) (n : Bool) (hab : b.y < a.y) (h0 : a.z ≤ b.z) (h1 : b.z - a.z ≤ a.y - b.y) :
    ∃ k, CornerBracket.make shippedQuality shipped.taper shippedBracket (some shippedCable) a b c n = .ok k :=
  (C102_zip n shipped_bracket shipped_zip shipped_taper (by norm_num [shippedBracket]) hab h0 h1).1 shipped_room

/-- **C105** The bracket at the front wall can be made from the shipped dimensions below each roof that does not rise by more than 45 degrees. -/
theorem C105_corner {a b : Vec} (c : Vec) (n : Bool) (hab : a.y ≠ b.y) (h0 : a.z ≤ b.z) (h1 : b.z - a.z ≤ |b.y - a.y|) :
    ∃ k, CornerBracket.make shippedQuality shipped.taper shippedBracket none a b c n = .ok k :=
  C102_corner_succeeds n shipped_bracket shipped_taper (by norm_num [shippedBracket]) h0 h1 hab

/-- **C105** The bracket below the roof can be made from the shipped dimensions, for each roof. -/
theorem C105_roof {a b : Vec} (φ i : ℝ) (M : Mat) (n : Bool) (hab : a.yz ≠ b.yz) :
    ∃ k, RoofBracket.make shippedQuality shipped.taper shippedBracket none φ i a b M n = .ok k :=
  C102_roof_succeeds n shipped_bracket shipped_taper hab

/-- **C105** The brackets of the floor can be made from the shipped dimensions, anywhere. -/
theorem C105_floor_bracket {a b c d e : Vec} (n : Bool) (ha : a.z = -shippedFloor.outerHeight + shippedFloor.innerHeight) (hd : d.z = shippedFloor.lipHeight) :
    ∃ k, FloorBracket.make shippedQuality shipped.taper shippedBracket a b c d e n = .ok k := by
  have hf : SaneFloorBracket shippedQuality shippedBracket a d := by
    have := shipped_floorBracket
    exact ⟨this.1, this.2, this.3, this.4, this.5, this.6, by rw [ha, hd]; exact this.7, this.8⟩
  have hm : (59 / 10 : ℝ) ≤ max shippedBracket.counterboreDiameter shippedBracket.nutAcrossFlats := le_max_of_le_left (by norm_num [shippedBracket])
  have e1 : shippedBracket.baseMargin = 1 / 5 := by norm_num [shippedBracket]
  have e2 : shippedBracket.apexMargin = 87 / 100 := by norm_num [shippedBracket]
  have e3 : a.z = -6 / 5 := by rw [ha]; norm_num [shippedFloor]
  have e4 : d.z = 6 / 5 := by rw [hd]; norm_num [shippedFloor]
  have e5 : shippedQuality.maxChordHeight = 1 / 100 := by norm_num [shippedQuality]
  apply C102_floor_succeeds n shipped_bracket shipped_taper hf <;> rw [e1, e2, e4]
  · linarith
  · rw [e3]; linarith
  · rw [e3, e5]; linarith

/-- **C105** The holes in the floor can be made from the shipped dimensions, in each border. -/
theorem C105_hex {edge : List Vec} (he : edge ≠ []) : ∃ hex ∈ shippedFloor.hexHoles, ∃ holes, hexGrid2D shippedQuality hex edge = .ok holes := by
  refine ⟨_, rfl, C86_succeeds _ _ _ he (by norm_num) (by norm_num) (by norm_num) fun _ => ?_⟩
  exact ⟨lt_of_lt_of_le (by norm_num) shipped_quality.angle, by norm_num [shippedQuality], by norm_num, by norm_num [shippedQuality]⟩

/-- **C105** The encoder's hole can be made from the shipped dimensions, in each roof at the ridge that faces upwards and whose sides do not stand at right angles. -/
theorem C105_encoder {roofO roofI : Plane} (hn : Upwards roofO.normal) (hd : 1e-6 ≤ roofI.normal.dot roofO.normal) :
    ∃ e, Encoder.make shippedQuality shipped.taper shippedEncoder roofO roofI = .ok e ∧
      Fit e.pieces (pathPairs e.splitEdgeF ++ pathPairs e.roofEdgeI ++ pathPairs e.splitEdgeB ++ pathPairs e.roofEdgeO) := by
  obtain ⟨e, h⟩ := C98_succeeds (cfg := shippedEncoder) (lt_of_lt_of_le (by norm_num) shipped_quality.angle) (by norm_num [shippedQuality])
    (by norm_num [shippedEncoder]) (by norm_num [shippedEncoder, shippedQuality]) shipped_taper hn hd
  exact ⟨e, h, C80_fit shipped_encoder hn h⟩

/-- **C105** The bumpers can be made from the shipped dimensions, anywhere. -/
theorem C105_bumper (floorHeight : ℝ) (pos : Vec) (isHalf : Bool) :
    ∃ c ∈ shipped.bumper, ∃ b, Bumper.make shippedQuality floorHeight c pos isHalf = .ok b :=
  ⟨_, rfl, C59_succeeds _ _ _ _ _ shipped_quality (by norm_num) (by norm_num [shippedQuality])⟩

/-- **C105** The hitch of the palm rest can be made from the shipped dimensions, if the front wall has a direction. -/
theorem C105_hitch {plan : Plan} (hne : plan.points.thumbOLF.xy ≠ plan.points.pinkyORF.xy) :
    ∃ hi, Hitch.make shipped plan shipped.palm = .ok (some hi) :=
  C89_hitch shipped_screw (shipped_rest le_rfl).taper hne

/-- **C105** Nothing fails unexpectedly while the palm rest is made from the shipped dimensions, for keyboards that are at least 60 mm wide. -/
theorem C105_palm {points : Points} {hi : Hitch} (h : 60 ^ 2 ≤ distSq2D points.thumbOLF points.pinkyORF) :
    Orderly (Palm.make shipped shippedPalm points hi) :=
  C89_palm (shipped_rest (Real.le_sqrt_of_sq_le h))

/-- **C105** A palm rest that is made from the shipped dimensions is watertight. -/
theorem C105_palm_watertight {side : Side} {fp : FullPlan} {hi : Hitch} {palm : Palm} (h : FullPlan.make shipped side = .ok fp)
    (hh : fp.hitch = some hi) (hp : Palm.make shipped shippedPalm fp.plan.points hi = .ok palm) {tss : List (List (Tri Vec))}
    (hm : SoundMesh (palm.faces ++ palm.pieces) tss) : Watertight tss.flatten :=
  C87_watertight h rfl hh hp shipped_palm hm

/-- **C105** The screw holes of the shipped dimensions can be made on each floor: their heads are closed. -/
theorem C105_head {pos : Vec} {clearance head : List Vec} {ts : List (Tri Vec)}
    (h : bossHead shippedQuality shippedFloor.outerHeight shippedBoss pos = .ok (clearance, head, ts)) :
    Closes ts (cycPairs clearance ++ cycPairs head) :=
  (C78_head _ _ _ _ _ _ _ shipped_quality shipped_head h).1

/-- **C69** At the ridge, the back wall is as thick, measured along the y axis, as its thickness and the angles tell. -/
theorem C69_ridge {cfg : PlanCfg} {side : Side} {plan : Plan} (h : Plan.make cfg side = .ok plan) :
    (plan.points.alnumOLB.y - plan.points.alnumILB.y) * Real.cos cfg.body.alnumBackAngle = cfg.body.wallThickness * Real.cos cfg.body.splitAngle := by
  obtain ⟨o1, o2, -⟩ := (C70_corners h (plan.points.alnumOLB, plan.sides.alnumOL, plan.walls.alnumOB, plan.tent.alnumOT) (by simp [Spec.corners]) _).mpr rfl
  obtain ⟨i1, i2, -⟩ := (C70_corners h (plan.points.alnumILB, plan.sides.alnumIL, plan.walls.alnumIB, plan.tent.alnumIT) (by simp [Spec.corners]) _).mpr rfl
  obtain ⟨t1, -, -, -, t5, -⟩ := C69_thickness h plan.points.alnumOLB
  obtain ⟨-, d1, -, -, -, -, -, d2, -⟩ := C74_directions h
  have d2 := d2 plan.walls.alnumIB (by simp)
  dsimp only at o1 o2 i1 i2
  rw [o2] at t1
  rw [o1] at t5
  unfold above at i1 i2 t1 t5
  rw [d1] at i1 t5
  rw [d2] at i2 t1
  simp only [oriented] at i1 t5
  have e : cfg.body.alnumBackAngle = (cfg.body.alnumBackAngle + cfg.body.splitAngle) - cfg.body.splitAngle := by ring
  rw [e, Real.cos_sub]
  generalize Real.cos (cfg.body.alnumBackAngle + cfg.body.splitAngle) = cb at *
  generalize Real.sin (cfg.body.alnumBackAngle + cfg.body.splitAngle) = sb at *
  simp only [Real.cos_zero, Real.sin_zero] at i1 t5
  ring_nf at i1 t5
  linear_combination (Real.cos cfg.body.splitAngle) * (t1 + i2) - sb * (t5 + i1)

/-- **C105** A body that is made from the shipped dimensions is watertight, if the reference points at the ridge are in their usual order. -/
theorem C105_body {side : Side} {fp : FullPlan} {body : Body} (h : FullPlan.make shipped side = .ok fp) (hb : Body.make shipped fp = .ok body)
    (he : 0 < (body.step.alnumOLF.y - fp.plan.points.ridgeORF.y) * fp.plan.points.ridgeORF.x)
    (hj : body.ridge.ilft.y < fp.plan.points.ridgeIRF.y) (hj' : body.step.alnumILF.y ≤ body.inner.alnumILBT.y)
    {tss : List (List (Tri Vec))}
    (hm : SoundMesh (body.faces ++ body.pieces) tss) : Watertight tss.flatten := by
  have hw : 1.6 ≤ fp.plan.points.alnumOLB.y - fp.plan.points.alnumILB.y := by
    have e := C69_ridge (fullPlan_ok h).1
    change _ * Real.cos (deg (-4.8)) = 4 * Real.cos (deg 12) at e
    rw [deg_neg, Real.cos_neg] at e
    have h1 := cos_deg (a := 12) (by norm_num) le_rfl
    have h2 := Real.cos_le_one (deg 4.8)
    have h3 := cos_deg (a := 4.8) (by norm_num) (by norm_num)
    norm_num at h1 h2 h3 e ⊢
    nlinarith
  refine watertight_of_fit (C83_cable h hb shipped_body (fun _ _ => he) (fun _ _ => ⟨hj, hj'⟩) ?_ shipped_taper) hm
  intro cc hcc
  obtain rfl := Option.some.inj hcc
  exact shipped_cable hw

/-- **C105** A floor that is made from the shipped dimensions is watertight, if its lip ends at the split plane and reaches the brackets. -/
theorem C105_floor {side : Side} {fp : FullPlan} {body : Body} {floor : Floor} (h : FullPlan.make shipped side = .ok fp)
    (hb : Body.make shipped fp = .ok body) (hf : Floor.make shipped fp body = .ok floor) (hp : SaneProfile floor.sketch True)
    (hF : LipReached shippedBracket (floor.sketch.p6.headD 0) (floor.sketch.p4.headD 0) (floor.sketch.p3.headD 0) 0)
    (hB : LipReached shippedBracket (floor.sketch.p6.getLastD 0).mirroredY (floor.sketch.p4.getLastD 0).mirroredY (floor.sketch.p3.getLastD 0).mirroredY 0)
    {tss : List (List (Tri Vec))} (hm : SoundMesh (floor.faces ++ floor.pieces) tss) : Watertight tss.flatten :=
  watertight_of_fit (C84_brackets h hb hf rfl shipped_floor shipped_floorBracket hp hF hB) hm

end Chrumm.Part
