import Verif.Lemmas.SageCurve
import Verif.Lemmas.TwistPrime
import Mathlib.NumberTheory.LegendreSymbol.QuadraticChar.Basic

/-! The number of points of the Montgomery form and of its twist, and the search for the base point. -/

namespace Ethsnarks
open Ethsnarks.Py Ethsnarks.BJ WeierstrassCurve
namespace Sage

theorem ringChar_Fp : ringChar Fp ≠ 2 := by
  rw [ZMod.ringChar_zmod_n, r_eq]
  norm_num

/-- The pairs that satisfy the equation of a curve. -/
theorem card_pairs (g : Fp → Fp) : (Nat.card {p : Fp × Fp // p.2 ^ 2 = g p.1} : ℤ) = r + ∑ x, quadraticChar Fp (g x) := by
  have e : {p : Fp × Fp // p.2 ^ 2 = g p.1} ≃ Σ x : Fp, {y : Fp // y ^ 2 = g x} :=
    { toFun := fun p => ⟨p.1.1, p.1.2, p.2⟩
      invFun := fun p => ⟨(p.1, p.2.1), p.2.2⟩
      left_inv := fun _ => rfl
      right_inv := fun _ => rfl }
  rw [Nat.card_congr e, Nat.card_eq_fintype_card, Fintype.card_sigma]
  have h : ∀ x : Fp, ((Fintype.card {y : Fp // y ^ 2 = g x} : ℕ) : ℤ) = quadraticChar Fp (g x) + 1 := by
    intro x
    rw [← quadraticChar_card_sqrts ringChar_Fp (g x), Set.toFinset_card]
    congr 1
  push_cast
  simp only [h, Finset.sum_add_distrib, Finset.sum_const, Finset.card_univ, ZMod.card]
  simp [add_comm]

/-- The curve `y² = x³ + a x² + b x`. -/
abbrev curve (a b : Fp) : WeierstrassCurve.Affine Fp := ⟨0, a, 0, b, 0⟩

theorem card_points (a b : Fp) (h : (curve a b).Δ ≠ 0) :
    (Nat.card (curve a b).Point : ℤ) = r + 1 + ∑ x, quadraticChar Fp (x ^ 3 + a * x ^ 2 + b * x) := by
  have e := Affine.nonsingularPointEquiv (curve a b)
  have e2 : {xy : Fp × Fp // (curve a b).Nonsingular xy.fst xy.snd} ≃
      {p : Fp × Fp // p.2 ^ 2 = p.1 ^ 3 + a * p.1 ^ 2 + b * p.1} := Equiv.subtypeEquivRight fun p => by
    rw [← Affine.equation_iff_nonsingular_of_Δ_ne_zero h, Affine.equation_iff]
    simp
  rw [Nat.card_congr e]
  change (Nat.card (Option _) : ℤ) = _
  rw [Finite.card_option, Nat.card_congr e2]
  push_cast
  rw [card_pairs fun x => x ^ 3 + a * x ^ 2 + b * x]
  ring

theorem sum_twist (D : Fp) (hD : ¬ IsSquare D) (a : Fp) :
    ∑ x, quadraticChar Fp (x ^ 3 + D * a * x ^ 2 + D ^ 2 * x) = - ∑ x, quadraticChar Fp (x ^ 3 + a * x ^ 2 + 1 * x) := by
  have h0 : D ≠ 0 := by rintro rfl; exact hD IsSquare.zero
  have e := (Equiv.sum_comp (Equiv.mulLeft₀ D h0) fun x => quadraticChar Fp (x ^ 3 + D * a * x ^ 2 + D ^ 2 * x))
  rw [← e, ← Finset.sum_neg_distrib]
  refine Finset.sum_congr rfl fun x _ => ?_
  have : (Equiv.mulLeft₀ D h0) x ^ 3 + D * a * (Equiv.mulLeft₀ D h0) x ^ 2 + D ^ 2 * (Equiv.mulLeft₀ D h0) x =
      D ^ 2 * (D * (x ^ 3 + a * x ^ 2 + 1 * x)) := by
    rw [show (Equiv.mulLeft₀ D h0) x = D * x from rfl]
    ring
  rw [this, map_mul, map_mul, quadraticChar_sq_one' h0, quadraticChar_neg_one_iff_not_isSquare.2 hD]
  ring

theorem card_E : Nat.card E.Point = 8 * jubjubL := by rw [← BJ.card_eq, Nat.card_congr iso.toEquiv]

theorem card_twist (D : Fp) (hD : ¬ IsSquare D) : Nat.card (twist D).Point = 2 * (r + 1) - 8 * jubjubL := by
  have h0 : D ≠ 0 := by rintro rfl; exact hD IsSquare.zero
  have h1 : (Nat.card E.Point : ℤ) = _ := card_points _ _ E_delta
  have h2 : (Nat.card (twist D).Point : ℤ) = _ := card_points _ _ (twist_delta D h0)
  rw [sum_twist D hD] at h2
  rw [card_E] at h1
  have : 4 * jubjubL ≤ r + 1 := by rw [r_eq, jubjubL]; norm_num
  omega

/-! ### The search for the base point -/

/-- `sqrt` returns a root of every square. -/
def IsSqrt (sqrt : Fp → Fp) : Prop := ∀ x, IsSquare x → sqrt x ^ 2 = x

/-- The check of one turn: either the value is no square, or a root and the Edwards coordinates of the point, which is not of order dividing `L`. -/
def rowOK (u : ℕ) : Option (ℕ × ℕ × ℕ) → Bool
  | none => powMod (u ^ 3 + 168698 * u ^ 2 + u) 10944121435919637611123202872628637544274182200208017171849102093287904247808
      21888242871839275222246405745257275088548364400416034343698204186575808495617 ==
      21888242871839275222246405745257275088548364400416034343698204186575808495616
  | some (v, x, y) => coordsOK u v x y && !isZeroN jubjubL x y
where
  /-- The pair is the image of the point. -/
  coordsOK (u v x y : ℕ) : Bool :=
    let m := 21888242871839275222246405745257275088548364400416034343698204186575808495617
    v * v % m == (u ^ 3 + 168698 * u ^ 2 + u) % m && x * v % m == u % m && (y * (u + 1) + 1) % m == u % m && u % m != 0 && (u + 1) % m != 0

theorem coordsOK_spec {u v x y : ℕ} (h : rowOK.coordsOK u v x y = true) (w : Fp) (hw : w ^ 2 = (u : Fp) ^ 3 + (168698 : ℕ) * (u : Fp) ^ 2 + u) :
    ∃ hn : E.Nonsingular u w, ∃ P : BJ, toE P = .some _ _ hn ∧ (w = (v : Fp) ∨ w = -(v : Fp)) ∧ (w = (v : Fp) → P.xy = ((x : Fp), (y : Fp))) ∧
      (w = -(v : Fp) → (-P).xy = ((x : Fp), (y : Fp))) := by
  simp only [rowOK.coordsOK, Bool.and_eq_true, beq_iff_eq, bne_iff_ne] at h
  obtain ⟨⟨⟨⟨h1, h2⟩, h3⟩, h4⟩, h5⟩ := h
  have h1 : (v : Fp) * v = (u : Fp) ^ 3 + (168698 : ℕ) * (u : Fp) ^ 2 + u := by have := Fp.natCast_eq h1; push_cast at this ⊢; exact this
  have h2 : (x : Fp) * v = u := by have := Fp.natCast_eq h2; push_cast at this; exact this
  have h3 : (y : Fp) * (u + 1) + 1 = u := by have := Fp.natCast_eq h3; push_cast at this; exact this
  have h4 : (u : Fp) ≠ 0 := by have := Fp.natCast_ne (a := u) (b := 0) h4; push_cast at this; exact this
  have h5 : (u : Fp) + 1 ≠ 0 := by have := Fp.natCast_ne (a := u + 1) (b := 0) h5; push_cast at this; exact this
  have hv : (v : Fp) ≠ 0 := by intro e; rw [e, mul_zero] at h2; exact h4 h2.symm
  have hn : E.Nonsingular u w := (nonsing _ _).2 (by rw [OnMont, montA_def]; exact hw)
  have hor : w = (v : Fp) ∨ w = -(v : Fp) := sq_eq_sq_iff_eq_or_eq_neg.1 (by rw [hw, ← h1]; ring)
  have hw0 : w ≠ 0 := by rcases hor with e | e <;> rw [e] <;> simpa using hv
  obtain ⟨P, hP, hE⟩ := toE_some hn hw0
  have hy : ((u : Fp) - 1) / (u + 1) = y := by rw [div_eq_iff h5]; linear_combination -h3
  refine ⟨hn, P, hE, hor, fun e => ?_, fun e => ?_⟩
  · rw [hP, hy, e]
    congr 1
    rw [div_eq_iff hv, h2]
  · rw [EdPoint.xy_neg, hP, hy, e]
    congr 1
    rw [div_neg, neg_neg, div_eq_iff hv, h2]

theorem order_toE (P : BJ) : addOrderOf (toE P) = addOrderOf P := addOrderOf_injective iso.toAddMonoidHom iso.injective P

theorem order_prime {P : BJ} (h : 8 < addOrderOf P) (hp : (addOrderOf P).Prime) : addOrderOf P = jubjubL := by
  have h2 : addOrderOf P ∣ 8 * jubjubL := by rw [← BJ.card_eq]; exact addOrderOf_dvd_natCard P
  rcases (Nat.Prime.dvd_mul hp).1 h2 with h3 | h3
  · exact absurd (Nat.le_of_dvd (by norm_num) h3) (by omega)
  · exact (Nat.prime_dvd_prime_iff_eq hp jubjubL_prime).1 h3

theorem find_row {sqrt : Fp → Fp} (hs : IsSqrt sqrt) {u : ℕ} {w : Option (ℕ × ℕ × ℕ)} (h : rowOK u w = true) (is : List ℕ) :
    find sqrt (u :: is) = find sqrt is := by
  rcases w with _ | ⟨v, x, y⟩
  · have h := Fp.nonsquare (beq_iff_eq.1 h)
    rw [find]
    simp only
    rw [if_pos]
    rintro ⟨x, hx⟩
    exact h x (by rw [← hx]; push_cast; rfl)
  · simp only [rowOK, Bool.and_eq_true, Bool.not_eq_true'] at h
    have hsq : IsSquare ((u : Fp) ^ 3 + (168698 : ℕ) * (u : Fp) ^ 2 + u) := by
      have := h.1
      simp only [rowOK.coordsOK, Bool.and_eq_true, beq_iff_eq] at this
      refine ⟨v, ?_⟩
      have := Fp.natCast_eq this.1.1.1.1
      push_cast at this ⊢
      exact this.symm
    obtain ⟨hn, P, hE, hor, e1, e2⟩ := coordsOK_spec h.1 _ (hs _ hsq)
    rw [find]
    simp only
    rw [if_neg (not_not.2 hsq), dif_pos hn, if_neg]
    rintro ⟨g1, g2⟩
    rw [← hE, order_toE] at g1 g2
    have hL : jubjubL • P = 0 := by rw [← order_prime g1 g2]; exact addOrderOf_nsmul_eq_zero P
    have hf : isZeroN jubjubL x y = true := by
      rcases hor with e | e
      · exact (isZeroN_spec _ x y (by norm_num [jubjubL]) P (e1 e)).1 hL
      · exact (isZeroN_spec _ x y (by norm_num [jubjubL]) (-P) (e2 e)).1 (by rw [smul_neg, hL, neg_zero])
    rw [h.2] at hf
    cases hf

/-- The roots and the points for `u` from 1 to 48. -/
def rows : List (Option (ℕ × ℕ × ℕ)) :=
  [some (7214280148105020021932206872019688659210616427216992810330019057549499971851, 2957874849018779266517920829765869116077630550401372566248359756137677864698,
    0),
  none,
  none,
  some (6406108198907395408914365675167945971971369939324804862709269051621520685271, 1318670959960452220229152683994084888310347339327799103173741758438468574221,
    4377648574367855044449281149051455017709672880083206868739640837315161699124),
  none,
  none,
  some (4258727773875940690362607550498304598101071202821725296872974770776423442226, 995203441582195749578291179787384436505546430278305826713579947235728471134,
    5472060717959818805561601436314318772137091100104008585924551046643952123905),
  none,
  none,
  some (1089998091431555144626072860093688453571365156801979997376684158520989633633, 1130233443313255197907593211334220237811548073926147964342711721842466412748,
    5969520783228893242430837930524711387785917563749827548281328414520675044260),
  none,
  none,
  none,
  none,
  none,
  none,
  none,
  none,
  none,
  some (9505173160887070551062844627669301607532534332252603955294770114461954519787, 13738796210486872992010041122983421282799457469561170144245458898204626614819,
    5211486398056970291011048986966017878225801047718103415166239092041859165624),
  some (2276602448274195036822277861810790621969683839470473978864021573924537988769, 20483080222662707315602093168891628561770874814533166105928854304934195290105,
    13928881827534084232338621837890993238167140982082930945989766300548241769939),
  none,
  some (5808004796711706480006219375360309683506499719599300142917082608952920896031, 10461373675616726673815848329523795839341650045914053291135798300705691166274,
    1824020239319939601853867145438106257379030366701336195308183682214650707969),
  none,
  none,
  some (6697000712524587895104426303568335247056248306252640131433309978253116028063, 19936765088801238882824207314222471940338153612920291841168231370491639988590,
    16213513238399463127589930181672055621146936592900766180517188286352450737495),
  some (8794448906609243164314224976246126288459080999079296387107710439698603507566, 13756486227461711968390328253638502839641147165128834676777267435509305885840,
    20324796952422184134943091049167469725080624086100603319148332458963250745931),
  none,
  none,
  none,
  some (1728054582590287694586405764771682048763598148107579299544062972550640856399, 8657012548063453279573206364685502310048893676070053226055900001845722499020,
    1368015179489954701390400359078579693034272775026002146481137761660988030977),
  none,
  none,
  some (2774226382304662910695018472194492193411721903396206482247595910822944273502, 11840342051737221025314371297705502065599167115696713090401766239956296886197,
    16259837561937747307954472839333975780064499268880482655318665967170600596745),
  none,
  some (9669109729970459794085966149311110678666968031684556078320445189613780249414, 4188467399499850968794616434535867427840954843267769860206855463266027256957,
    20705094608496611696719573002270395354032236594988140595390193149463602630990),
  some (2000438254216241693520075467189419198237623347283260229867234645390336232737, 11000094017572875511257181909615222553972399727781392935089175238047948329873,
    20736230089110892315812384390243734294414239958288874641398298703071818574796),
  some (8408524737574626866572472460678308482591814303496911516453918155099715837635, 19987569492552013365667432781288429248971783941397012479871533804621584604434,
    1122473993427655139602379781808065389156326379508514581728113035209015820289),
  some (7683532878784681812017153724976500393665973884488664681040386971839646525480, 1406597497344102873333004295745290438641457983694886740538345937491738768323,
    14227357866695528894460163734417228807556436860270422323403832721274275522152),
  none,
  some (5638114336201955208865911392232831327758003110291416843009344851930608753681, 15250575426180029404720251247360659720319533485954544259512554028782436097407,
    13549864634948122756628727366111646483387082724067068879432221639308833830621),
  none,
  none,
  some (4630465860747234202492246954832975157295430064902926013302040454741287716793, 13938432259950322692213297194024293346127640640578090888401676882966166147585,
    5350459368671822832104676959951778354978489075657252839570672134496308743374),
  none,
  some (4375825713628737732480607133595786927164532238417581856229757681194086757265, 16166165010843493672787440179870567777255895444146409745939518542997365340286,
    14436926149511011316800820810701606973297857370487171588396687867741490709876),
  some (6228891077635383764210856856543933335033866857475523465585340229028000714050, 18115376141909244443643545694831323926393588354881352667280118077660479716950,
    912010119659969800926933572719053128689515183350668097654091841107325353985),
  none]

theorem rows_ok : (rows.zipIdx 1).all (fun p => rowOK p.2 p.1) = true := by decide +kernel

theorem find_rows {sqrt : Fp → Fp} (hs : IsSqrt sqrt) (l : List (Option (ℕ × ℕ × ℕ))) : ∀ k, (l.zipIdx k).all (fun p => rowOK p.2 p.1) = true → ∀ is,
    find sqrt (List.range' k l.length ++ is) = find sqrt is := by
  induction l with
  | nil => intro k _ is; rfl
  | cons w l ih =>
    intro k h is
    simp only [List.zipIdx_cons, List.all_cons, Bool.and_eq_true] at h
    rw [List.length_cons, List.range'_succ, List.cons_append, find_row hs h.1, ih _ h.2]

/-- The value under the root at 49 and its lower root. -/
def f49 : Fp := ((49 : ℕ) : Fp) ^ 3 + (168698 : ℕ) * ((49 : ℕ) : Fp) ^ 2 + ((49 : ℕ) : Fp)
def v49 : ℕ := 9299363453318200705862291866206362851451858058193867120470786816605550302462
def x49 : ℕ := 17777552123799933955779906779655732241715742912184938656739573121738514868268
def y49 : ℕ := 2626589144620713026669568689430873010625803728049924121243784502389097019475

theorem c49 : rowOK.coordsOK 49 v49 x49 y49 = true := by decide +kernel

theorem f49_root : (v49 : Fp) ^ 2 = f49 := by
  have := c49
  simp only [rowOK.coordsOK, Bool.and_eq_true, beq_iff_eq] at this
  have := Fp.natCast_eq this.1.1.1.1
  rw [f49]
  push_cast at this ⊢
  linear_combination this

theorem order49 (P : BJ) (h : P.xy = ((x49 : Fp), (y49 : Fp))) : addOrderOf P = jubjubL ∧ 8 • P = jubjubG := by
  have : Fact jubjubL.Prime := ⟨jubjubL_prime⟩
  constructor
  · apply addOrderOf_eq_prime
    · exact (isZeroN_spec _ x49 y49 (by norm_num [jubjubL]) P h).2 (by decide +kernel)
    · intro h0
      have := (isZeroN_spec 1 x49 y49 (by norm_num) P h).1 (by rw [h0, smul_zero])
      revert this
      decide +kernel
  · have h8 := mulN_spec 256 8 0 P (0, 1, 1) (x49, y49, 1) (by norm_num) (by rw [RepN]; simpa using Rep.zero) (by rw [RepN, Rep, h]; simp)
    rw [zero_add] at h8
    obtain ⟨hz, hx, hy⟩ := h8
    apply EdPoint.ext
    have k1 : (16540640123574156134436876038791482806971768689494387082833631921987005038935 * (mulN 256 8 (0, 1, 1) (x49, y49, 1)).2.2) %
        21888242871839275222246405745257275088548364400416034343698204186575808495617 = (mulN 256 8 (0, 1, 1) (x49, y49, 1)).1 %
        21888242871839275222246405745257275088548364400416034343698204186575808495617 := by decide +kernel
    have k2 : (20819045374670962167435360035096875258406992893633759881276124905556507972311 * (mulN 256 8 (0, 1, 1) (x49, y49, 1)).2.2) %
        21888242871839275222246405745257275088548364400416034343698204186575808495617 = (mulN 256 8 (0, 1, 1) (x49, y49, 1)).2.1 %
        21888242871839275222246405745257275088548364400416034343698204186575808495617 := by decide +kernel
    have k1 := Fp.natCast_eq k1
    have k2 := Fp.natCast_eq k2
    generalize mulN 256 8 (0, 1, 1) (x49, y49, 1) = q at *
    rw [Nat.cast_mul] at k1 k2
    refine Prod.ext ?_ ?_
    · exact mul_right_cancel₀ hz (hx.trans k1.symm)
    · exact mul_right_cancel₀ hz (hy.trans k2.symm)

end Sage
end Ethsnarks
