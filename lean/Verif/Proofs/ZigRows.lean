/-
Generated by `tools/gen_zigrows.py`: the numbers `2^114 * W[i]` and `2^114 * F[i]` of the ziggurat
tables, as pairs `(m, k)` for `m * 2^k`.
The kernel checks them against the decimal constants of `Verif.Model.ZigTables`.
-/
import Verif.Proofs.ZigRound
namespace Crazy

def expoWRow : List (Nat × Nat) := [
  (5773707352475599, 12), (4546401829011641, 4), (7408952677839616, 4), (4823366671992391, 5),
  (5771895969696393, 5), (6610438411383616, 5), (7370862650957756, 5), (8072290663100047, 5),
  (8727216003307230, 5), (4672156597775647, 6), (4964943128871482, 6), (5244341028084195, 6),
  (5512188978504082, 6), (5769944912412824, 6), (6018787486640776, 6), (6259685342479292, 6),
  (6493445802075857, 6), (6720749987295593, 6), (6942178709411349, 6), (7158231925054171, 6),
  (7369343606809852, 6), (7575893281263981, 6), (7778215102452511, 6), (7976605073939070, 6),
  (8171326860453541, 6), (8362616511221267, 6), (8550686333736268, 6), (8735728097278400, 6),
  (8917915702457184, 6), (4548703710760592, 7), (4637173895377566, 7), (4724434609352372, 7),
  (4810546680314061, 7), (4895566149675097, 7), (4979544782396159, 7), (5062530509142402, 7),
  (5144567811462330, 7), (5225698058701631, 7), (5305959803834066, 7), (5385389044162942, 7),
  (5464019451854219, 7), (5541882578455843, 7), (5619008036898853, 7), (5695423663934460, 7),
  (5771155665514362, 7), (5846228747250791, 7), (5920666231783847, 7), (5994490164625131, 7),
  (6067721409829389, 7), (6140379736662576, 7), (6212483898279544, 7), (6284051703292590, 7),
  (6355100080999622, 7), (6425645140944416, 7), (6495702227398833, 7), (6565285969285696, 7),
  (6634410325999617, 7), (6703088629529894, 7), (6771333623243369, 7), (6839157497644992, 7),
  (6906571923398717, 7), (6973588081860684, 7), (7040216693349727, 7), (7106468043356585, 7),
  (7172352006872396, 7), (7237878070998630, 7), (7303055355984393, 7), (7367892634822598, 7),
  (7432398351523736, 7), (7496580638174572, 7), (7560447330878974, 7), (7624005984669021, 7),
  (7687263887466457, 7), (7750228073167289, 7), (7812905333915843, 7), (7875302231628745, 7),
  (7937425108824047, 7), (7999280098805956, 7), (8060873135251390, 7), (8122209961240686, 7),
  (8183296137771314, 7), (8244137051790279, 7), (8304737923778016, 7), (8365103814913985, 7),
  (8425239633851785, 7), (8485150143129463, 7), (8544839965238717, 7), (8604313588374889, 7),
  (8663575371888013, 7), (8722629551453679, 7), (8781480243981100, 7), (8840131452274493, 7),
  (8898587069462767, 7), (8956850883211408, 7), (4507463289864751, 8), (4536408873791968, 8),
  (4565263940665987, 8), (4594030192491338, 8), (4622709287648445, 8), (4651302842467459, 8),
  (4679812432730180, 8), (4708239595104036, 8), (4736585828511843, 8), (4764852595440806, 8),
  (4793041323194043, 8), (4821153405087663, 8), (4849190201596277, 8), (4877153041449621, 8),
  (4905043222682819, 8), (4932862013642659, 8), (4960610653952101, 8), (4988290355435128, 8),
  (5015902303003908, 8), (5043447655510119, 8), (5070927546562203, 8), (5098343085310191, 8),
  (5125695357199651, 8), (5152985424696252, 8), (5180214327982300, 8), (5207383085626590, 8),
  (5234492695228787, 8), (5261544134039525, 8), (5288538359557326, 8), (5315476310103392, 8),
  (5342358905375259, 8), (5369187046980260, 8), (5395961618949691, 8), (5422683488234513, 8),
  (5449353505183418, 8), (5475972504003993, 8), (5502541303207721, 8), (5529060706039515, 8),
  (5555531500892407, 8), (5581954461708050, 8), (5608330348363598, 8), (5634659907045530, 8),
  (5660943870610964, 8), (5687182958936950, 8), (5713377879258252, 8), (5739529326494050, 8),
  (5765637983564032, 8), (5791704521694272, 8), (5817729600713312, 8), (5843713869338812, 8),
  (5869657965455151, 8), (5895562516382308, 8), (5921428139136373, 8), (5947255440681992, 8),
  (5973045018177053, 8), (5998797459209905, 8), (6024513342029388, 8), (6050193235767933, 8),
  (6075837700657990, 8), (6101447288242030, 8), (6127022541576342, 8), (6152563995428865, 8),
  (6178072176471247, 8), (6203547603465358, 8), (6228990787444428, 8), (6254402231889026, 8),
  (6279782432898031, 8), (6305131879354791, 8), (6330451053088621, 8), (6355740429031803, 8),
  (6381000475372249, 8), (6406231653701961, 8), (6431434419161430, 8), (6456609220580122, 8),
  (6481756500613165, 8), (6506876695874374, 8), (6531970237065724, 8), (6557037549103398, 8),
  (6582079051240507, 8), (6607095157186600, 8), (6632086275224069, 8), (6657052808321530, 8),
  (6681995154244295, 8), (6706913705662022, 8), (6731808850253620, 8), (6756680970809509, 8),
  (6781530445331310, 8), (6806357647129040, 8), (6831162944915900, 8), (6855946702900715, 8),
  (6880709280878109, 8), (6905451034316480, 8), (6930172314443831, 8), (6954873468331539, 8),
  (6979554838976107, 8), (7004216765378966, 8), (7028859582624386, 8), (7053483621955542, 8),
  (7078089210848800, 8), (7102676673086269, 8), (7127246328826662, 8), (7151798494674530, 8),
  (7176333483747901, 8), (7200851605744374, 8), (7225353167005718, 8), (7249838470581002, 8),
  (7274307816288320, 8), (7298761500775121, 8), (7323199817577212, 8), (7347623057176452, 8),
  (7372031507057174, 8), (7396425451761379, 8), (7420805172942723, 8), (7445170949419345, 8),
  (7469523057225551, 8), (7493861769662393, 8), (7518187357347169, 8), (7542500088261886, 8),
  (7566800227800684, 8), (7591088038816280, 8), (7615363781665441, 8), (7639627714253507, 8),
  (7663880092078009, 8), (7688121168271375, 8), (7712351193642780, 8), (7736570416719137, 8),
  (7760779083785262, 8), (7784977438923233, 8), (7809165724050964, 8), (7833344178960005, 8),
  (7857513041352604, 8), (7881672546878032, 8), (7905822929168200, 8), (7929964419872583, 8),
  (7954097248692466, 8), (7978221643414534, 8), (8002337829943808, 8), (8026446032335967, 8),
  (8050546472829048, 8), (8074639371874546, 8), (8098724948167939, 8), (8122803418678635, 8),
  (8146874998679367, 8), (8170939901775042, 8), (8194998339931064, 8), (8219050523501135, 8),
  (8243096661254549, 8), (8267136960403002, 8), (8291171626626908, 8), (8315200864101250, 8),
  (8339224875520968, 8), (8363243862125903, 8), (8387258023725293, 8), (8411267558721848, 8),
  (8435272664135400, 8), (8459273535626146, 8), (8483270367517491, 8), (8507263352818493, 8),
  (8531252683245935, 8), (8555238549246017, 8), (8579221140015679, 8), (8603200643523578, 8),
  (8627177246530700, 8), (8651151134610641, 8), (8675122492169551, 8), (8699091502465749, 8),
  (8723058347629016, 8), (8747023208679584, 8), (8770986265546809, 8), (8794947697087549, 8),
  (8818907681104250, 8), (8842866394362741, 8), (8866824012609754, 8), (8890780710590167, 8),
  (8914736662063975, 8), (8938692039823006, 8), (8962647015707371, 8), (8986601760621671, 8),
  (4505278222275474, 9), (4517255618288201, 9), (4529233152445437, 9), (4541210908407042, 9),
  (4553188969403831, 9), (4565167418244970, 9), (4577146337325269, 9), (4589125808632369, 9),
  (4601105913753819, 9), (4613086733884059, 9), (4625068349831296, 9), (4637050842024291, 9),
  (4649034290519039, 9), (4661018775005366, 9), (4673004374813429, 9), (4684991168920125, 9),
  (4696979235955417, 9), (4708968654208566, 9), (4720959501634290, 9), (4732951855858826, 9),
  (4744945794185922, 9), (4756941393602749, 9), (4768938730785725, 9), (4780937882106276, 9),
  (4792938923636513, 9), (4804941931154841, 9), (4816946980151491, 9), (4828954145833991, 9),
  (4840963503132556, 9), (4852975126705419, 9), (4864989090944098, 9), (4877005469978586, 9),
  (4889024337682493, 9), (4901045767678113, 9), (4913069833341438, 9), (4925096607807111, 9),
  (4937126163973315, 9), (4949158574506612, 9), (4961193911846725, 9), (4973232248211255, 9),
  (4985273655600360, 9), (4997318205801368, 9), (5009365970393344, 9), (5021417020751608, 9),
  (5033471428052194, 9), (5045529263276276, 9), (5057590597214529, 9), (5069655500471454, 9),
  (5081724043469657, 9), (5093796296454078, 9), (5105872329496177, 9), (5117952212498083, 9),
  (5130036015196692, 9), (5142123807167729, 9), (5154215657829770, 9), (5166311636448220, 9),
  (5178411812139255, 9), (5190516253873729, 9), (5202625030481035, 9), (5214738210652937, 9),
  (5226855862947367, 9), (5238978055792179, 9), (5251104857488875, 9), (5263236336216297, 9),
  (5275372560034286, 9), (5287513596887304, 9), (5299659514608032, 9), (5311810380920932, 9),
  (5323966263445781, 9), (5336127229701172, 9), (5348293347107993, 9), (5360464682992870, 9),
  (5372641304591589, 9), (5384823279052483, 9), (5397010673439803, 9), (5409203554737053, 9),
  (5421401989850305, 9), (5433606045611491, 9), (5445815788781665, 9), (5458031286054243, 9),
  (5470252604058227, 9), (5482479809361397, 9), (5494712968473483, 9), (5506952147849322, 9),
  (5519197413891984, 9), (5531448832955888, 9), (5543706471349888, 9), (5555970395340345, 9),
  (5568240671154182, 9), (5580517364981913, 9), (5592800542980663, 9), (5605090271277160, 9),
  (5617386615970720, 9), (5629689643136209, 9), (5641999418826991, 9), (5654316009077858, 9),
  (5666639479907945, 9), (5678969897323636, 9), (5691307327321444, 9), (5703651835890887, 9),
  (5716003489017345, 9), (5728362352684905, 9), (5740728492879193, 9), (5753101975590192, 9),
  (5765482866815051, 9), (5777871232560881, 9), (5790267138847534, 9), (5802670651710380, 9),
  (5815081837203069, 9), (5827500761400280, 9), (5839927490400464, 9), (5852362090328575, 9),
  (5864804627338797, 9), (5877255167617251, 9), (5889713777384704, 9), (5902180522899269, 9),
  (5914655470459087, 9), (5927138686405015, 9), (5939630237123296, 9), (5952130189048230, 9),
  (5964638608664832, 9), (5977155562511490, 9), (5989681117182608, 9), (6002215339331257, 9),
  (6014758295671808, 9), (6027310052982563, 9), (6039870678108389, 9), (6052440237963341, 9),
  (6065018799533276, 9), (6077606429878476, 9), (6090203196136258, 9), (6102809165523586, 9),
  (6115424405339672, 9), (6128048982968588, 9), (6140682965881864, 9), (6153326421641086, 9),
  (6165979417900502, 9), (6178642022409612, 9), (6191314303015766, 9), (6203996327666763, 9),
  (6216688164413440, 9), (6229389881412272, 9), (6242101546927964, 9), (6254823229336047, 9),
  (6267554997125473, 9), (6280296918901213, 9), (6293049063386851, 9), (6305811499427190, 9),
  (6318584295990848, 9), (6331367522172863, 9), (6344161247197295, 9), (6356965540419841, 9),
  (6369780471330439, 9), (6382606109555885, 9), (6395442524862449, 9), (6408289787158499, 9),
  (6421147966497122, 9), (6434017133078754, 9), (6446897357253816, 9), (6459788709525348, 9),
  (6472691260551658, 9), (6485605081148964, 9), (6498530242294053, 9), (6511466815126940, 9),
  (6524414870953532, 9), (6537374481248301, 9), (6550345717656965, 9), (6563328651999172, 9),
  (6576323356271193, 9), (6589329902648623, 9), (6602348363489089, 9), (6615378811334966, 9),
  (6628421318916101, 9), (6641475959152548, 9), (6654542805157306, 9), (6667621930239072, 9),
  (6680713407905000, 9), (6693817311863474, 9), (6706933716026882, 9), (6720062694514410, 9),
  (6733204321654838, 9), (6746358671989358, 9), (6759525820274387, 9), (6772705841484406, 9),
  (6785898810814803, 9), (6799104803684728, 9), (6812323895739965, 9), (6825556162855808, 9),
  (6838801681139961, 9), (6852060526935438, 9), (6865332776823487, 9), (6878618507626522, 9),
  (6891917796411070, 9), (6905230720490736, 9), (6918557357429170, 9), (6931897785043069, 9),
  (6945252081405173, 9), (6958620324847290, 9), (6972002593963333, 9), (6985398967612370, 9),
  (6998809524921697, 9), (7012234345289915, 9), (7025673508390041, 9), (7039127094172621, 9),
  (7052595182868871, 9), (7066077854993827, 9), (7079575191349519, 9), (7093087273028164, 9),
  (7106614181415375, 9), (7120155998193385, 9), (7133712805344303, 9), (7147284685153374, 9),
  (7160871720212274, 9), (7174473993422412, 9), (7188091587998263, 9), (7201724587470717, 9),
  (7215373075690450, 9), (7229037136831318, 9), (7242716855393772, 9), (7256412316208296, 9),
  (7270123604438867, 9), (7283850805586441, 9), (7297594005492459, 9), (7311353290342376, 9),
  (7325128746669221, 9), (7338920461357176, 9), (7352728521645180, 9), (7366553015130560, 9),
  (7380394029772690, 9), (7394251653896669, 9), (7408125976197037, 9), (7422017085741507, 9),
  (7435925071974728, 9), (7449850024722080, 9), (7463792034193492, 9), (7477751190987291, 9),
  (7491727586094079, 9), (7505721310900639, 9), (7519732457193876, 9), (7533761117164777, 9),
  (7547807383412417, 9), (7561871348947983, 9), (7575953107198836, 9), (7590052752012604, 9),
  (7604170377661310, 9), (7618306078845525, 9), (7632459950698565, 9), (7646632088790716, 9),
  (7660822589133493, 9), (7675031548183935, 9), (7689259062848940, 9), (7703505230489626, 9),
  (7717770148925739, 9), (7732053916440091, 9), (7746356631783035, 9), (7760678394176988, 9),
  (7775019303320977, 9), (7789379459395235, 9), (7803758963065838, 9), (7818157915489369, 9),
  (7832576418317641, 9), (7847014573702444, 9), (7861472484300346, 9), (7875950253277531, 9),
  (7890447984314678, 9), (7904965781611893, 9), (7919503749893670, 9), (7934061994413914, 9),
  (7948640620960995, 9), (7963239735862855, 9), (7977859445992161, 9), (7992499858771505, 9),
  (8007161082178651, 9), (8021843224751832, 9), (8036546395595094, 9), (8051270704383692, 9),
  (8066016261369536, 9), (8080783177386690, 9), (8095571563856918, 9), (8110381532795288, 9),
  (8125213196815826, 9), (8140066669137229, 9), (8154942063588626, 9), (8169839494615398, 9),
  (8184759077285056, 9), (8199700927293178, 9), (8214665160969392, 9), (8229651895283436, 9),
  (8244661247851264, 9), (8259693336941213, 9), (8274748281480241, 9), (8289826201060220, 9),
  (8304927215944288, 9), (8320051447073273, 9), (8335199016072180, 9), (8350370045256739, 9),
  (8365564657640023, 9), (8380782976939132, 9), (8396025127581950, 9), (8411291234713962, 9),
  (8426581424205150, 9), (8441895822656956, 9), (8457234557409320, 9), (8472597756547785, 9),
  (8487985548910683, 9), (8503398064096396, 9), (8518835432470687, 9), (8534297785174116, 9),
  (8549785254129527, 9), (8565297972049623, 9), (8580836072444616, 9), (8596399689629957, 9),
  (8611988958734154, 9), (8627604015706677, 9), (8643244997325932, 9), (8658912041207347, 9),
  (8674605285811520, 9), (8690324870452475, 9), (8706070935305998, 9), (8721843621418068, 9),
  (8737643070713381, 9), (8753469426003968, 9), (8769322830997907, 9), (8785203430308134, 9),
  (8801111369461351, 9), (8817046794907032, 9), (8833009854026538, 9), (8849000695142321, 9),
  (8865019467527245, 9), (8881066321414008, 9), (8897141408004664, 9), (8913244879480268, 9),
  (8929376889010618, 9), (8945537590764115, 9), (8961727139917738, 9), (8977945692667128, 9),
  (8994193406236796, 9), (4505235219445221, 10), (4513388474970701, 10), (4521556549881607, 10),
  (4529739524900149, 10), (4537937481289392, 10), (4546150500858723, 10), (4554378665969386, 10),
  (4562622059540087, 10), (4570880765052659, 10), (4579154866557800, 10), (4587444448680875, 10),
  (4595749596627793, 10), (4604070396190948, 10), (4612406933755241, 10), (4620759296304164, 10),
  (4629127571425966, 10), (4637511847319892, 10), (4645912212802496, 10), (4654328757314036, 10),
  (4662761570924943, 10), (4671210744342369, 10), (4679676368916824, 10), (4688158536648885, 10),
  (4696657340195998, 10), (4705172872879355, 10), (4713705228690865, 10), (4722254502300210, 10),
  (4730820789061988, 10), (4739404185022951, 10), (4748004786929325, 10), (4756622692234237, 10),
  (4765257999105221, 10), (4773910806431835, 10), (4782581213833364, 10), (4791269321666626, 10),
  (4799975231033882, 10), (4808699043790843, 10), (4817440862554781, 10), (4826200790712753, 10),
  (4834978932429921, 10), (4843775392657988, 10), (4852590277143744, 10), (4861423692437725, 10),
  (4870275745902979, 10), (4879146545723962, 10), (4888036200915534, 10), (4896944821332095, 10),
  (4905872517676822, 10), (4914819401511050, 10), (4923785585263761, 10), (4932771182241215, 10),
  (4941776306636701, 10), (4950801073540428, 10), (4959845598949542, 10), (4968909999778288, 10),
  (4977994393868306, 10), (4987098899999070, 10), (4996223637898467, 10), (5005368728253530, 10),
  (5014534292721307, 10), (5023720453939898, 10), (5032927335539625, 10), (5042155062154378, 10),
  (5051403759433106, 10), (5060673554051473, 10), (5069964573723683, 10), (5079276947214466, 10),
  (5088610804351237, 10), (5097966276036428, 10), (5107343494259991, 10), (5116742592112091, 10),
  (5126163703795967, 10), (5135606964640989, 10), (5145072511115898, 10), (5154560480842241, 10),
  (5164071012607998, 10), (5173604246381408, 10), (5183160323325002, 10), (5192739385809831, 10),
  (5202341577429919, 10), (5211967043016911, 10), (5221615928654955, 10), (5231288381695790, 10),
  (5240984550774071, 10), (5250704585822914, 10), (5260448638089678, 10), (5270216860151984, 10),
  (5280009405933977, 10), (5289826430722828, 10), (5299668091185492, 10), (5309534545385721, 10),
  (5319425952801336, 10), (5329342474341758, 10), (5339284272365819, 10), (5349251510699838, 10),
  (5359244354655982, 10), (5369262971050913, 10), (5379307528224717, 10), (5389378196060139, 10),
  (5399475146002112, 10), (5409598551077597, 10), (5419748585915735, 10), (5429925426768316, 10),
  (5440129251530574, 10), (5450360239762315, 10), (5460618572709381, 10), (5470904433325457, 10),
  (5481218006294229, 10), (5491559478051904, 10), (5501929036810087, 10), (5512326872579036, 10),
  (5522753177191295, 10), (5533208144325710, 10), (5543691969531841, 10), (5554204850254779, 10),
  (5564746985860368, 10), (5575318577660851, 10), (5585919828940933, 10), (5596550944984292, 10),
  (5607212133100523, 10), (5617903602652539, 10), (5628625565084435, 10), (5639378233949826, 10),
  (5650161824940655, 10), (5660976555916507, 10), (5671822646934413, 10), (5682700320279170, 10),
  (5693609800494183, 10), (5704551314412842, 10), (5715525091190435, 10), (5726531362336626, 10),
  (5737570361748495, 10), (5748642325744158, 10), (5759747493096982, 10), (5770886105070396, 10),
  (5782058405453324, 10), (5793264640596253, 10), (5804505059447932, 10), (5815779913592742, 10),
  (5827089457288727, 10), (5838433947506316, 10), (5849813643967750, 10), (5861228809187215, 10),
  (5872679708511717, 10), (5884166610162705, 10), (5895689785278448, 10), (5907249507957212, 10),
  (5918846055301216, 10), (5930479707461424, 10), (5942150747683159, 10), (5953859462352578, 10),
  (5965606141044019, 10), (5977391076568242, 10), (5989214565021583, 10), (6001076905836043, 10),
  (6012978401830336, 10), (6024919359261910, 10), (6036900087879973, 10), (6048920900979540, 10),
  (6060982115456536, 10), (6073084051863960, 10), (6085227034469151, 10), (6097411391312188, 10),
  (6109637454265420, 10), (6121905559094196, 10), (6134216045518780, 10), (6146569257277519, 10),
  (6158965542191261, 10), (6171405252229077, 10), (6183888743575306, 10), (6196416376697958, 10),
  (6208988516418509, 10), (6221605531983127, 10), (6234267797135351, 10), (6246975690190273, 10),
  (6259729594110255, 10), (6272529896582215, 10), (6285376990096529, 10), (6298271272027586, 10),
  (6311213144716035, 10), (6324203015552773, 10), (6337241297064714, 10), (6350328407002383, 10),
  (6363464768429393, 10), (6376650809813835, 10), (6389886965121650, 10), (6403173673912021, 10),
  (6416511381434840, 10), (6429900538730317, 10), (6443341602730768, 10), (6456835036364652, 10),
  (6470381308662919, 10), (6483980894867719, 10), (6497634276543551, 10), (6511341941690900, 10),
  (6525104384862449, 10), (6538922107281917, 10), (6552795616965613, 10), (6566725428846764, 10),
  (6580712064902709, 10), (6594756054285022, 10), (6608857933452663, 10), (6623018246308230, 10),
  (6637237544337402, 10), (6651516386751664, 10), (6665855340634411, 10), (6680254981090517, 10),
  (6694715891399484, 10), (6709238663172257, 10), (6723823896511823, 10), (6738472200177700, 10),
  (6753184191754435, 10), (6767960497824214, 10), (6782801754143726, 10), (6797708605825393, 10),
  (6812681707523097, 10), (6827721723622547, 10), (6842829328436419, 10), (6858005206404414, 10),
  (6873250052298388, 10), (6888564571432703, 10), (6903949479879963, 10), (6919405504692309, 10),
  (6934933384128423, 10), (6950533867886450, 10), (6966207717342997, 10), (6981955705798418, 10),
  (6997778618728576, 10), (7013677254043291, 10), (7029652422351693, 10), (7045704947234686, 10),
  (7061835665524783, 10), (7078045427593520, 10), (7094335097646720, 10), (7110705554027859, 10),
  (7127157689529794, 10), (7143692411715149, 10), (7160310643245629, 10), (7177013322220588, 10),
  (7193801402525132, 10), (7210675854188112, 10), (7227637663750333, 10), (7244687834643328, 10),
  (7261827387579068, 10), (7279057360950994, 10), (7296378811246757, 10), (7313792813473090, 10),
  (7331300461593235, 10), (7348902868977381, 10), (7366601168866570, 10), (7384396514850567, 10),
  (7402290081360202, 10), (7420283064174704, 10), (7438376680944591, 10), (7456572171730679, 10),
  (7474870799559829, 10), (7493273850998037, 10), (7511782636741543, 10), (7530398492226631, 10),
  (7549122778258834, 10), (7567956881662301, 10), (7586902215950094, 10), (7605960222016240, 10),
  (7625132368850387, 10), (7644420154275957, 10), (7663825105712733, 10), (7683348780964857, 10),
  (7702992769035252, 10), (7722758690967566, 10), (7742648200716726, 10), (7762662986049315, 10),
  (7782804769474979, 10), (7803075309210172, 10), (7823476400175595, 10), (7844009875028743, 10),
  (7864677605233082, 10), (7885481502165387, 10), (7906423518262928, 10), (7927505648212218, 10),
  (7948729930181143, 10), (7970098447096402, 10), (7991613327968261, 10), (8013276749264753, 10),
  (8035090936337543, 10), (8057058164901822, 10), (8079180762572699, 10), (8101461110460707, 10),
  (8123901644829171, 10), (8146504858816344, 10), (8169273304225375, 10), (8192209593385342, 10),
  (8215316401086769, 10), (8238596466595225, 10), (8262052595746837, 10), (8285687663129741, 10),
  (8309504614355729, 10), (8333506468426634, 10), (8357696320200215, 10), (8382077342960615, 10),
  (8406652791098772, 10), (8431426002908474, 10), (8456400403504094, 10), (8481579507866437, 10),
  (8506966924023505, 10), (8532566356373421, 10), (8558381609157211, 10), (8584416590089639, 10),
  (8610675314156810, 10), (8637161907589826, 10), (8663880612024383, 10), (8690835788856872, 10),
  (8718031923808218, 10), (8745473631707487, 10), (8773165661508082, 10), (8801112901550249, 10),
  (8829320385084562, 10), (8857793296072078, 10), (8886536975277983, 10), (8915556926676740, 10),
  (8944858824188060, 10), (8974448518764433, 10), (9004332045852480, 10), (4517257816626033, 11),
  (4532502854699450, 11), (4547904456049169, 11), (4563466048870109, 11), (4579191175513455, 11),
  (4595083497624642, 11), (4611146801574040, 11), (4627385004200599, 11), (4643802158890354, 11),
  (4660402462013528, 11), (4677190259745917, 11), (4694170055302468, 11), (4711346516613293, 11),
  (4728724484475055, 11), (4746308981213481, 11), (4764105219896017, 11), (4782118614137088, 11),
  (4800354788542361, 11), (4818819589842650, 11), (4837519098772914, 11), (4856459642756993, 11),
  (4875647809464651, 11), (4895090461313937, 11), (4914794750999151, 11), (4934768138132749, 11),
  (4955018407098553, 11), (4975553686223686, 11), (4996382468387960, 11), (5017513633202107, 11),
  (5038956470900459, 11), (5060720708109729, 11), (5082816535673603, 11), (5105254638733273, 11),
  (5128046229287158, 11), (5151203081479276, 11), (5174737569895523, 11), (5198662711181063, 11),
  (5222992209330739, 11), (5247740505048767, 11), (5272922829624731, 11), (5298555263831316, 11),
  (5324654802416467, 11), (5351239424840378, 11), (5378328172997707, 11), (5405941236769907, 11),
  (5434100048374333, 11), (5462827386618935, 11), (5492147492338007, 11), (5522086196480302, 11),
  (5552671062551886, 11), (5583931545389517, 11), (5615899168565204, 11), (5648607723109930, 11),
  (5682093490708288, 11), (5716395495073292, 11), (5751555785883767, 11), (5787619760483307, 11),
  (5824636529534937, 11), (5862659334044741, 11), (5901746022668990, 11), (5941959600078466, 11),
  (5983368859469692, 11), (6026049115215880, 11), (6070083055313643, 11), (6115561737936234, 11),
  (6162585762362954, 11), (6211266652243342, 11), (6261728499160289, 11), (6314109927594385, 11),
  (6368566459810936, 11), (6425273382527432, 11), (6484429248834496, 11), (6546260192195469, 11),
  (6611025289579584, 11), (6679023295662293, 11), (6750601191514876, 11), (6826165168082682, 11),
  (6906194927146261, 11), (6991262579883652, 11), (7082058039160387, 11), (7179423781516217, 11),
  (7284403459550623, 11), (7398311562272659, 11), (7522836099452671, 11), (7660195070853317, 11),
  (7813384494838697, 11), (7986590838153039, 11), (8185918670113468, 11), (8420775065091820, 11),
  (8706779693705510, 11), (4536396915732766, 12), (4790933665773594, 12), (5210757399054287, 12)]

theorem expoWRow_chk : chkRows expoWLit expoWRow = true := by decide +kernel

def expoFRow : List (Nat × Nat) := [
  (4503599627370496, 62), (8727484419971712, 61), (8555841261796276, 61), (8424014664019556, 61),
  (8313851899212862, 61), (8217663419927827, 61), (8131398345090792, 61), (8052629127685756, 61),
  (7979771068717419, 61), (7911724546207761, 61), (7847690779687771, 61), (7787068480833319, 61),
  (7729391937024861, 61), (7674291929325439, 61), (7621469993045940, 61), (7570680857218026, 61),
  (7521720102206018, 61), (7474415261273062, 61), (7428619262292484, 61), (7384205500287032, 61),
  (7341064071950674, 61), (7299098854477845, 61), (7258225208672017, 61), (7218368150919729, 61),
  (7179460882304905, 61), (7141443593257562, 61), (7104262483263521, 61), (7067868950227822, 61),
  (7032218914983422, 61), (6997272254427461, 61), (6962992322698342, 61), (6929345544259518, 61),
  (6896301066133964, 61), (6863830459121506, 61), (6831907459832181, 61), (6800507746929212, 61),
  (6769608746201606, 61), (6739189460057644, 61), (6709230317805053, 61), (6679713043705443, 61),
  (6650620540292841, 61), (6621936784854290, 61), (6593646737303954, 61), (6565736257956087, 61),
  (6538192033928398, 61), (6511001513094887, 61), (6484152844663581, 61), (6457634825585385, 61),
  (6431436852110188, 61), (6405548875899128, 61), (6379961364180407, 61), (6354665263502830, 61),
  (6329651966698133, 61), (6304913282711885, 61), (6280441409004514, 61), (6256228906260039, 61),
  (6232268675171131, 61), (6208553935096040, 61), (6185078204406308, 61), (6161835282364473, 61),
  (6138819232388790, 61), (6116024366577447, 61), (6093445231378420, 61), (6071076594303045, 61),
  (6048913431591946, 61), (6026950916751231, 61), (6005184409885124, 61), (5983609447758464, 61),
  (5962221734528991, 61), (5941017133095090, 61), (5919991657009787, 61), (5899141462916386, 61),
  (5878462843465223, 61), (5857952220674656, 61), (5837606139702762, 61), (5817421262999088, 61),
  (5797394364808531, 61), (5777522326001774, 61), (5757802129208894, 61), (5738230854234698, 61),
  (5718805673736112, 61), (5699523849143558, 61), (5680382726809709, 61), (5661379734370311, 61),
  (5642512377302993, 61), (5623778235671062, 61), (5605174961040259, 61), (5586700273557418, 61),
  (5568351959180723, 61), (5550127867052094, 61), (5532025907002870, 61), (5514044047184632, 61),
  (5496180311817576, 61), (5478432779049385, 61), (5460799578918058, 61), (5443278891412578, 61),
  (5425868944625755, 61), (5408568012993937, 61), (5391374415618657, 61), (5374286514665591, 61),
  (5357302713836542, 61), (5340421456910398, 61), (5323641226349313, 61), (5306960541966580, 61),
  (5290377959652887, 61), (5273892070157870, 61), (5257501497924050, 61), (5241204899970427, 61),
  (5225000964823180, 61), (5208888411491062, 61), (5192865988483226, 61), (5176932472867361, 61),
  (5161086669366125, 61), (5145327409490004, 61), (5129653550704804, 61), (5114063975632109, 61),
  (5098557591281124, 61), (5083133328310405, 61), (5067790140318075, 61), (5052527003159186, 61),
  (5037342914288980, 61), (5022236892130847, 61), (5007207975467860, 61), (4992255222856825, 61),
  (4977377712063825, 61), (4962574539520321, 61), (4947844819798877, 61), (4933187685107678, 61),
  (4918602284803001, 61), (4904087784918883, 61), (4889643367713243, 61), (4875268231229757, 61),
  (4860961588874831, 61), (4846722669009032, 61), (4832550714552393, 61), (4818444982602997, 61),
  (4804404744068319, 61), (4790429283308806, 61), (4776517897793183, 61), (4762669897765043, 61),
  (4748884605920260, 61), (4735161357094792, 61), (4721499497962486, 61), (4707898386742475, 61),
  (4694357392915821, 61), (4680875896951028, 61), (4667453290038097, 61), (4654088973830807, 61),
  (4640782360196903, 61), (4627532870975898, 61), (4614339937744212, 61), (4601203001587377, 61),
  (4588121512879048, 61), (4575094931066572, 61), (4562122724462881, 61), (4549204370044488, 61),
  (4536339353255352, 61), (4523527167816427, 61), (4510767315540677, 61), (8996118612306754, 60),
  (8970805314235019, 60), (8945593786928177, 60), (8920483095254471, 60), (8895472318567701, 60),
  (8870560550395435, 60), (8845746898135805, 60), (8821030482762589, 60), (8796410438538306, 60),
  (8771885912735068, 60), (8747456065362921, 60), (8723120068905442, 60), (8698877108062350, 60),
  (8674726379498913, 60), (8650667091601919, 60), (8626698464242012, 60), (8602819728542202, 60),
  (8579030126652320, 60), (8555328911529275, 60), (8531715346722900, 60), (8508188706167226, 60),
  (8484748273977022, 60), (8461393344249425, 60), (8438123220870521, 60), (8414937217326716, 60),
  (8391834656520760, 60), (8368814870592276, 60), (8345877200742670, 60), (8323020997064283, 60),
  (8300245618373668, 60), (8277550432048864, 60), (8254934813870553, 60), (8232398147866993, 60),
  (8209939826162606, 60), (8187559248830128, 60), (8165255823746213, 60), (8143028966450393, 60),
  (8120878100007301, 60), (8098802654872064, 60), (8076802068758780, 60), (8054875786511991, 60),
  (8033023259981060, 60), (8011243947897399, 60), (7989537315754432, 60), (7967902835690252, 60),
  (7946339986372880, 60), (7924848252888060, 60), (7903427126629525, 60), (7882076105191664, 60),
  (7860794692264527, 60), (7839582397531106, 60), (7818438736566838, 60), (7797363230741259, 60),
  (7776355407121764, 60), (7755414798379413, 60), (7734540942696733, 60), (7713733383677461, 60),
  (7692991670258183, 60), (7672315356621813, 60), (7651704002112876, 60), (7631157171154540, 60),
  (7610674433167356, 60), (7590255362489666, 60), (7569899538299636, 60), (7549606544538866, 60),
  (7529375969837557, 60), (7509207407441171, 60), (7489100455138570, 60), (7469054715191587, 60),
  (7449069794265995, 60), (7429145303363839, 60), (7409280857757110, 60), (7389476076922705, 60),
  (7369730584478670, 60), (7350044008121677, 60), (7330415979565706, 60), (7310846134481920, 60),
  (7291334112439681, 60), (7271879556848707, 60), (7252482114902315, 60), (7233141437521750, 60),
  (7213857179301563, 60), (7194628998456009, 60), (7175456556766455, 60), (7156339519529763, 60),
  (7137277555507638, 60), (7118270336876901, 60), (7099317539180690, 60), (7080418841280543, 60),
  (7061573925309366, 60), (7042782476625253, 60), (7024044183766138, 60), (7005358738405272, 60),
  (6986725835307492, 60), (6968145172286284, 60), (6949616450161596, 60), (6931139372718417, 60),
  (6912713646666073, 60), (6894338981598249, 60), (6876015089953713, 60), (6857741686977720, 60),
  (6839518490684095, 60), (6821345221817967, 60), (6803221603819155, 60), (6785147362786177, 60),
  (6767122227440879, 60), (6749145929093668, 60), (6731218201609337, 60), (6713338781373468, 60),
  (6695507407259408, 60), (6677723820595789, 60), (6659987765134606, 60), (6642298987019819, 60),
  (6624657234756481, 60), (6607062259180377, 60), (6589513813428168, 60), (6572011652908018, 60),
  (6554555535270712, 60), (6537145220381241, 60), (6519780470290851, 60), (6502461049209545, 60),
  (6485186723479027, 60), (6467957261546089, 60), (6450772433936418, 60), (6433632013228824, 60),
  (6416535774029882, 60), (6399483492948971, 60), (6382474948573711, 60), (6365509921445791, 60),
  (6348588194037169, 60), (6331709550726651, 60), (6314873777776834, 60), (6298080663311406, 60),
  (6281329997292800, 60), (6264621571500192, 60), (6247955179507837, 60), (6231330616663741, 60),
  (6214747680068652, 60), (6198206168555381, 60), (6181705882668428, 60), (6165246624643921, 60),
  (6148828198389857, 60), (6132450409466641, 60), (6116113065067916, 60), (6099815974001675, 60),
  (6083558946671663, 60), (6067341795059049, 60), (6051164332704368, 60), (6035026374689737, 60),
  (6018927737621319, 60), (6002868239612060, 60), (5986847700264665, 60), (5970865940654829, 60),
  (5954922783314708, 60), (5939018052216631, 60), (5923151572757044, 60), (5907323171740691, 60),
  (5891532677365013, 60), (5875779919204774, 60), (5860064728196912, 60), (5844386936625590, 60),
  (5828746378107475, 60), (5813142887577215, 60), (5797576301273119, 60), (5782046456723047, 60),
  (5766553192730484, 60), (5751096349360823, 60), (5735675767927825, 60), (5720291290980275, 60),
  (5704942762288819, 60), (5689630026832980, 60), (5674352930788362, 60), (5659111321514011, 60),
  (5643905047539971, 60), (5628733958554988, 60), (5613597905394396, 60), (5598496740028157, 60),
  (5583430315549072, 60), (5568398486161137, 60), (5553401107168068, 60), (5538438034961975, 60),
  (5523509127012180, 60), (5508614241854195, 60), (5493753239078838, 60), (5478925979321495, 60),
  (5464132324251526, 60), (5449372136561804, 60), (5434645279958399, 60), (5419951619150387, 60),
  (5405291019839804, 60), (5390663348711715, 60), (5376068473424430, 60), (5361506262599828, 60),
  (5346976585813818, 60), (5332479313586918, 60), (5318014317374954, 60), (5303581469559881, 60),
  (5289180643440718, 60), (5274811713224595, 60), (5260474554017924, 60), (5246169041817669, 60),
  (5231895053502734, 60), (5217652466825459, 60), (5203441160403214, 60), (5189261013710110, 60),
  (5175111907068808, 60), (5160993721642423, 60), (5146906339426541, 60), (5132849643241328, 60),
  (5118823516723731, 60), (5104827844319788, 60), (5090862511277019, 60), (5076927403636918, 60),
  (5063022408227536, 60), (5049147412656150, 60), (5035302305302025, 60), (5021486975309262, 60),
  (5007701312579732, 60), (4993945207766097, 60), (4980218552264911, 60), (4966521238209810, 60),
  (4952853158464775, 60), (4939214206617482, 60), (4925604276972732, 60), (4912023264545947, 60),
  (4898471065056761, 60), (4884947574922672, 60), (4871452691252774, 60), (4857986311841568, 60),
  (4844548335162830, 60), (4831138660363571, 60), (4817757187258052, 60), (4804403816321872, 60),
  (4791078448686130, 60), (4777780986131651, 60), (4764511331083273, 60), (4751269386604211, 60),
  (4738055056390478, 60), (4724868244765371, 60), (4711708856674020, 60), (4698576797678004, 60),
  (4685471973950019, 60), (4672394292268617, 60), (4659343660012993, 60), (4646319985157845, 60),
  (4633323176268278, 60), (4620353142494773, 60), (4607409793568212, 60), (4594493039794958, 60),
  (4581602792051987, 60), (4568738961782079, 60), (4555901460989060, 60), (4543090202233095, 60),
  (4530305098626037, 60), (4517546063826825, 60), (4504813012036934, 60), (8984211715991740, 59),
  (8958849033953449, 59), (8933537809563535, 59), (8908277875476188, 59), (8883069065386633, 59),
  (8857911214022609, 59), (8832804157135942, 59), (8807747731494204, 59), (8782741774872470, 59),
  (8757786126045158, 59), (8732880624777957, 59), (8708025111819842, 59), (8683219428895182, 59),
  (8658463418695917, 59), (8633756924873833, 59), (8609099792032911, 59), (8584491865721762, 59),
  (8559932992426136, 59), (8535423019561518, 59), (8510961795465794, 59), (8486549169392003, 59),
  (8462184991501157, 59), (8437869112855141, 59), (8413601385409688, 59), (8389381662007421, 59),
  (8365209796370977, 59), (8341085643096196, 59), (8317009057645381, 59), (8292979896340631, 59),
  (8268998016357241, 59), (8245063275717168, 59), (8221175533282572, 59), (8197334648749412, 59),
  (8173540482641119, 59), (8149792896302325, 59), (8126091751892661, 59), (8102436912380620, 59),
  (8078828241537475, 59), (8055265603931265, 59), (8031748864920845, 59), (8008277890649983, 59),
  (7984852548041536, 59), (7961472704791665, 59), (7938138229364124, 59), (7914848990984598, 59),
  (7891604859635099, 59), (7868405706048420, 59), (7845251401702645, 59), (7822141818815711, 59),
  (7799076830340026, 59), (7776056309957139, 59), (7753080132072468, 59), (7730148171810073, 59),
  (7707260305007485, 59), (7684416408210590, 59), (7661616358668550, 59), (7638860034328793, 59),
  (7616147313832035, 59), (7593478076507363, 59), (7570852202367359, 59), (7548269572103275, 59),
  (7525730067080256, 59), (7503233569332605, 59), (7480779961559101, 59), (7458369127118356, 59),
  (7436000950024220, 59), (7413675314941235, 59), (7391392107180123, 59), (7369151212693326, 59),
  (7346952518070588, 59), (7324795910534575, 59), (7302681277936542, 59), (7280608508752040, 59),
  (7258577492076665, 59), (7236588117621843, 59), (7214640275710667, 59), (7192733857273759, 59),
  (7170868753845182, 59), (7149044857558389, 59), (7127262061142207, 59), (7105520257916863, 59),
  (7083819341790048, 59), (7062159207253013, 59), (7040539749376711, 59), (7018960863807966, 59),
  (6997422446765687, 59), (6975924395037109, 59), (6954466605974079, 59), (6933048977489367, 59),
  (6911671408053023, 59), (6890333796688756, 59), (6869036042970358, 59), (6847778047018154, 59),
  (6826559709495491, 59), (6805380931605253, 59), (6784241615086416, 59), (6763141662210631, 59),
  (6742080975778842, 59), (6721059459117929, 59), (6700077016077390, 59), (6679133551026051, 59),
  (6658228968848806, 59), (6637363174943387, 59), (6616536075217165, 59), (6595747576083982, 59),
  (6574997584461010, 59), (6554286007765641, 59), (6533612753912402, 59), (6512977731309907, 59),
  (6492380848857827, 59), (6471822015943897, 59), (6451301142440942, 59), (6430818138703941, 59),
  (6410372915567106, 59), (6389965384341001, 59), (6369595456809674, 59), (6349263045227828, 59),
  (6328968062318011, 59), (6308710421267831, 59), (6288490035727203, 59), (6268306819805614, 59),
  (6248160688069420, 59), (6228051555539161, 59), (6207979337686909, 59), (6187943950433632, 59),
  (6167945310146587, 59), (6147983333636737, 59), (6128057938156193, 59), (6108169041395671, 59),
  (6088316561481986, 59), (6068500416975557, 59), (6048720526867946, 59), (6028976810579405, 59),
  (6009269187956462, 59), (5989597579269517, 59), (5969961905210469, 59), (5950362086890356, 59),
  (5930798045837022, 59), (5911269703992809, 59), (5891776983712263, 59), (5872319807759864, 59),
  (5852898099307778, 59), (5833511781933631, 59), (5814160779618299, 59), (5794845016743724, 59),
  (5775564418090745, 59), (5756318908836952, 59), (5737108414554562, 59), (5717932861208309, 59),
  (5698792175153360, 59), (5679686283133244, 59), (5660615112277805, 59), (5641578590101176, 59),
  (5622576644499761, 59), (5603609203750251, 59), (5584676196507647, 59), (5565777551803307, 59),
  (5546913199043007, 59), (5528083068005029, 59), (5509287088838254, 59), (5490525192060286, 59),
  (5471797308555584, 59), (5453103369573617, 59), (5434443306727035, 59), (5415817051989856, 59),
  (5397224537695674, 59), (5378665696535878, 59), (5360140461557894, 59), (5341648766163443, 59),
  (5323190544106809, 59), (5304765729493134, 59), (5286374256776721, 59), (5268016060759358, 59),
  (5249691076588655, 59), (5231399239756401, 59), (5213140486096935, 59), (5194914751785529, 59),
  (5176721973336796, 59), (5158562087603105, 59), (5140435031773014, 59), (5122340743369721, 59),
  (5104279160249529, 59), (5086250220600324, 59), (5068253862940072, 59), (5050290026115327, 59),
  (5032358649299757, 59), (5014459671992685, 59), (4996593034017641, 59), (4978758675520933, 59),
  (4960956536970232, 59), (4943186559153168, 59), (4925448683175943, 59), (4907742850461959, 59),
  (4890069002750461, 59), (4872427082095187, 59), (4854817030863044, 59), (4837238791732788, 59),
  (4819692307693720, 59), (4802177522044400, 59), (4784694378391373, 59), (4767242820647902, 59),
  (4749822793032726, 59), (4732434240068825, 59), (4715077106582195, 59), (4697751337700644, 59),
  (4680456878852600, 59), (4663193675765924, 59), (4645961674466748, 59), (4628760821278319, 59),
  (4611591062819856, 59), (4594452346005422, 59), (4577344618042811, 59), (4560267826432443, 59),
  (4543221918966274, 59), (4526206843726720, 59), (4509222549085594, 59), (8984537967406106, 58),
  (8950692193053115, 58), (8916907673579696, 58), (8883184308023861, 58), (8849521995992148, 58),
  (8815920637657644, 58), (8782380133758033, 58), (8748900385593668, 58), (8715481295025665, 58),
  (8682122764474027, 58), (8648824696915784, 58), (8615586995883169, 58), (8582409565461808, 58),
  (8549292310288941, 58), (8516235135551659, 58), (8483237946985178, 58), (8450300650871123, 58),
  (8417423154035846, 58), (8384605363848766, 58), (8351847188220726, 58), (8319148535602385, 58),
  (8286509314982625, 58), (8253929435886986, 58), (8221408808376122, 58), (8188947343044284, 58),
  (8156544951017826, 58), (8124201543953729, 58), (8091917034038158, 58), (8059691333985035, 58),
  (8027524357034639, 58), (7995416016952230, 58), (7963366228026692, 58), (7931374905069205, 58),
  (7899441963411939, 58), (7867567318906769, 58), (7835750887924017, 58), (7803992587351212, 58),
  (7772292334591882, 58), (7740650047564361, 58), (7709065644700625, 58), (7677539044945148, 58),
  (7646070167753785, 58), (7614658933092673, 58), (7583305261437164, 58), (7552009073770774, 58),
  (7520770291584157, 58), (7489588836874107, 58), (7458464632142578, 58), (7427397600395730, 58),
  (7396387665143003, 58), (7365434750396205, 58), (7334538780668634, 58), (7303699680974218, 58),
  (7272917376826678, 58), (7242191794238722, 58), (7211522859721254, 58), (7180910500282614, 58),
  (7150354643427839, 58), (7119855217157948, 58), (7089412149969255, 58), (7059025370852700, 58),
  (7028694809293209, 58), (6998420395269080, 58), (6968202059251390, 58), (6938039732203427, 58),
  (6907933345580149, 58), (6877882831327667, 58), (6847888121882753, 58), (6817949150172372, 58),
  (6788065849613243, 58), (6758238154111421, 58), (6728465998061906, 58), (6698749316348282, 58),
  (6669088044342371, 58), (6639482117903927, 58), (6609931473380346, 58), (6580436047606404, 58),
  (6550995777904025, 58), (6521610602082073, 58), (6492280458436169, 58), (6463005285748539, 58),
  (6433785023287887, 58), (6404619610809294, 58), (6375508988554145, 58), (6346453097250087, 58),
  (6317451878111010, 58), (6288505272837059, 58), (6259613223614673, 58), (6230775673116652, 58),
  (6201992564502257, 58), (6173263841417331, 58), (6144589447994455, 58), (6115969328853134, 58),
  (6087403429100009, 58), (6058891694329099, 58), (6030434070622077, 58), (6002030504548573, 58),
  (5973680943166508, 58), (5945385334022460, 58), (5917143625152063, 58), (5888955765080429, 58),
  (5860821702822617, 58), (5832741387884118, 58), (5804714770261384, 58), (5776741800442384, 58),
  (5748822429407194, 58), (5720956608628622, 58), (5693144290072868, 58), (5665385426200213, 58),
  (5637679969965747, 58), (5610027874820131, 58), (5582429094710394, 58), (5554883584080765, 58),
  (5527391297873543, 58), (5499952191530003, 58), (5472566220991334, 58), (5445233342699626, 58),
  (5417953513598880, 58), (5390726691136071, 58), (5363552833262237, 58), (5336431898433618, 58),
  (5309363845612825, 58), (5282348634270059, 58), (5255386224384362, 58), (5228476576444916, 58),
  (5201619651452380, 58), (5174815410920270, 58), (5148063816876384, 58), (5121364831864269, 58),
  (5094718418944730, 58), (5068124541697392, 58), (5041583164222294, 58), (5015094251141543, 58),
  (4988657767601006, 58), (4962273679272051, 58), (4935941952353341, 58), (4909662553572667, 58),
  (4883435450188842, 58), (4857260609993636, 58), (4831138001313768, 58), (4805067593012946, 58),
  (4779049354493962, 58), (4753083255700842, 58), (4727169267121043, 58), (4701307359787715, 58),
  (4675497505282012, 58), (4649739675735463, 58), (4624033843832400, 58), (4598379982812443, 58),
  (4572778066473051, 58), (4547228069172125, 58), (4521729965830681, 58), (8992567463871160, 57),
  (8941778687084649, 57), (8891093554555840, 57), (8840512020687606, 57), (8790034041037669, 57),
  (8739659572324730, 57), (8689388572434731, 57), (8639221000427264, 57), (8589156816542126, 57),
  (8539195982206014, 57), (8489338460039378, 57), (8439584213863424, 57), (8389933208707265, 57),
  (8340385410815244, 57), (8290940787654406, 57), (8241599307922144, 57), (8192360941554000, 57),
  (8143225659731655, 57), (8094193434891074, 57), (8045264240730841, 57), (7996438052220669, 57),
  (7947714845610100, 57), (7899094598437383, 57), (7850577289538558, 57), (7802162899056723, 57),
  (7753851408451506, 57), (7705642800508743, 57), (7657537059350362, 57), (7609534170444477, 57),
  (7561634120615700, 57), (7513836898055681, 57), (7466142492333860, 57), (7418550894408463, 57),
  (7371062096637730, 57), (7323676092791376, 57), (7276392878062311, 57), (7229212449078601, 57),
  (7182134803915692, 57), (7135159942108890, 57), (7088287864666119, 57), (7041518574080945, 57),
  (6994852074345883, 57), (6948288370965994, 57), (6901827470972770, 57), (6855469382938323, 57),
  (6809214116989884, 57), (6763061684824606, 57), (6717012099724700, 57), (6671065376572893, 57),
  (6625221531868227, 57), (6579480583742200, 57), (6533842551975262, 57), (6488307458013673, 57),
  (6442875324986728, 57), (6397546177724369, 57), (6352320042775178, 57), (6307196948424773, 57),
  (6262176924714612, 57), (6217260003461215, 57), (6172446218275814, 57), (6127735604584449, 57),
  (6083128199648504, 57), (6038624042585721, 57), (5994223174391673, 57), (5949925637961739, 57),
  (5905731478113569, 57), (5861640741610065, 57), (5817653477182891, 57), (5773769735556522, 57),
  (5729989569472848, 57), (5686313033716349, 57), (5642740185139856, 57), (5599271082690915, 57),
  (5555905787438769, 57), (5512644362601972, 57), (5469486873576663, 57), (5426433387965508, 57),
  (5383483975607330, 57), (5340638708607459, 57), (5297897661368801, 57), (5255260910623666, 57),
  (5212728535466372, 57), (5170300617386634, 57), (5127977240303788, 57), (5085758490601848, 57),
  (5043644457165434, 57), (5001635231416601, 57), (4959730907352583, 57), (4917931581584493, 57),
  (4876237353377001, 57), (4834648324689017, 57), (4793164600215425, 57), (4751786287429881, 57),
  (4710513496628728, 57), (4669346340976043, 57), (4628284936549874, 57), (4587329402389683, 57),
  (4546479860545062, 57), (4505736436125727, 57), (8930198514705734, 56), (8849136911223746, 56),
  (8768288331012997, 56), (8687653049828992, 56), (8607231350089579, 56), (8527023520992445, 56),
  (8447029858635888, 56), (8367250666142974, 56), (8287686253789202, 56), (8208336939133781, 56),
  (8129203047154682, 56), (8050284910387561, 56), (7971582869068721, 56), (7893097271282248, 56),
  (7814828473111472, 56), (7736776838794917, 56), (7658942740886906, 56), (7581326560422996, 56),
  (7503928687090417, 56), (7426749519403721, 56), (7349789464885829, 56), (7273048940254685, 56),
  (7196528371615748, 56), (7120228194660534, 56), (7044148854871463, 56), (6968290807733260, 56),
  (6892654518951163, 56), (6817240464676235, 56), (6742049131738063, 56), (6667081017885137, 56),
  (6592336632033260, 56), (6517816494522296, 56), (6443521137381638, 56), (6369451104604753, 56),
  (6295606952433207, 56), (6221989249650580, 56), (6148598577886718, 56), (6075435531932767, 56),
  (6002500720067497, 56), (5929794764395405, 56), (5857318301197163, 56), (5785071981292964, 56),
  (5713056470419384, 56), (5641272449620397, 56), (5569720615653208, 56), (5498401681409648, 56),
  (5427316376353859, 56), (5356465446977097, 56), (5285849657270490, 56), (5215469789216679, 56),
  (5145326643301272, 56), (5075421039045159, 56), (5005753815558769, 56), (4936325832119414, 56),
  (4867137968772963, 56), (4798191126961147, 56), (4729486230175903, 56), (4661024224642241, 56),
  (4592806080031222, 56), (4524832790204766, 56), (8914210747988170, 55), (8779249752027413, 55),
  (8644784735026330, 55), (8510817894537196, 55), (8377351485033283, 55), (8244387819866414, 55),
  (8111929273319806, 55), (7979978282762150, 55), (7848537350909362, 55), (7717609048200889, 55),
  (7587196015298049, 55), (7457300965712448, 55), (7327926688573183, 55), (7199076051542246, 55),
  (7070752003888365, 55), (6942957579730324, 55), (6815695901461822, 55), (6688970183370931, 55),
  (6562783735468406, 55), (6437139967540365, 55), (6312042393442285, 55), (6187494635652844, 55),
  (6063500430107868, 55), (5940063631336623, 55), (5817188217924845, 55), (5694878298331327, 55),
  (5573138117087624, 55), (5451972061413447, 55), (5331384668283777, 55), (5211380631987551, 55),
  (5091964812222144, 55), (4973142242772761, 55), (4854918140831437, 55), (4737297917016667, 55),
  (4620287186161869, 55), (4503891778949138, 55), (8776235508948231, 54), (8545942827677282, 54),
  (8316918629760486, 54), (8089176576323827, 54), (7862730908724413, 54), (7637596486450070, 54),
  (7413788828502114, 54), (7191324158677788, 54), (6970219455230781, 54), (6750492505461270, 54),
  (6532161965873372, 54), (6315247428640764, 54), (6099769495244091, 54), (5885749858291334, 54),
  (5673211392710347, 54), (5462178257718850, 54), (5252676011240769, 54), (5044731738761575, 54),
  (4838374199015283, 54), (4633633989393556, 54), (8861087469182684, 53), (8458276605583656, 53),
  (8058910109395910, 53), (7663068264018581, 53), (7270837587239952, 53), (6882311620028054, 53),
  (6497591858510513, 53), (6116788863790416, 53), (5740023594944377, 53), (5367429025348302, 53),
  (4999152123288073, 53), (4635356307620709, 53), (8552449065654631, 52), (7843926445958722, 52),
  (7145614748393746, 52), (6458054606762674, 52), (5781875559613545, 52), (5117821433245150, 52),
  (8933573539440756, 51), (7659742377016179, 51), (6416929114246132, 51), (5208778057777670, 51),
  (8080625895871740, 50), (5837971983492332, 50), (7428935345740799, 49), (7048205023284965, 48)]

theorem expoFRow_chk : chkRows expoFLit expoFRow = true := by decide +kernel

def normalWRow : List (Nat × Nat) := [
  (4811471668656207, 11), (4866177538725437, 6), (6455493261236147, 6), (7559066963176361, 6),
  (8431167569087078, 6), (4582053499664236, 7), (4901404988511230, 7), (5186419129799803, 7),
  (5445126793162760, 7), (5682935144003882, 7), (5903675409015867, 7), (6110170970901298, 7),
  (6304568456766972, 7), (6488541947136409, 7), (6663424820722562, 7), (6830298150035491, 7),
  (6990051873170648, 7), (7143428283717786, 7), (7291053677674936, 7), (7433461854203083, 7),
  (7571111881163003, 7), (7704401739106930, 7), (7833678948850658, 7), (7959248955105497, 7),
  (8081381816120639, 7), (8200317597388612, 7), (8316270761874161, 7), (8429433774598951, 7),
  (8539980085868501, 7), (8648066618473069, 7), (8753835855492135, 7), (8857417603934484, 7),
  (8958930493319743, 7), (4529241628015313, 8), (4578087913415537, 8), (4626050145815996, 8),
  (4673170854935055, 8), (4719489415181648, 8), (4765042358466951, 8), (4809863648619488, 8),
  (4853984922976417, 8), (4897435705796440, 8), (4940243597385526, 8), (4982434442209789, 8),
  (5024032478762870, 8), (5065060473536288, 8), (5105539841093708, 8), (5145490751960301, 8),
  (5184932229795887, 8), (5223882239116679, 8), (5262357764658508, 8), (5300374883328748, 8),
  (5337948829570431, 8), (5375094054856467, 8), (5411824281941674, 8), (5448152554422790, 8),
  (5484091282090011, 8), (5519652282496033, 8), (5554846819118741, 8), (5589685636450489, 8),
  (5624178992309276, 8), (5658336687634301, 8), (5692168093999728, 8), (5725682179055296, 8),
  (5758887530080378, 8), (5791792375818613, 8), (5824404606743108, 8), (5856731793887059, 8),
  (5888781206361194, 8), (5920559827667557, 8), (5952074370908562, 8), (5983331292980808, 8),
  (6014336807834758, 8), (6045096898873860, 8), (6075617330559962, 8), (6105903659285872, 8),
  (6135961243570456, 8), (6165795253626864, 8), (6195410680350034, 8), (6224812343765726, 8),
  (6254004900979728, 8), (6282992853662691, 8), (6311780555103103, 8), (6340372216858279, 8),
  (6368771915030842, 8), (6396983596195983, 8), (6425011083002813, 8), (6452858079471296, 8),
  (6480528176004623, 8), (6508024854135359, 8), (6535351491022349, 8), (6562511363714081, 8),
  (6589507653193065, 8), (6616343448214750, 8), (6643021748953483, 8), (6669545470467192, 8),
  (6695917445991582, 8), (6722140430073951, 8), (6748217101555990, 8), (6774150066414308, 8),
  (6799941860466849, 8), (6825594951952800, 8), (6851111743993098, 8), (6876494576938178, 8),
  (6901745730609181, 8), (6926867426438421, 8), (6951861829514566, 8), (6976731050537626, 8),
  (7001477147688545, 8), (7026102128417855, 8), (7050607951157643, 8), (7074996526960755, 8),
  (7099269721070972, 8), (7123429354427652, 8), (7147477205108132, 8), (7171415009710984, 8),
  (7195244464683039, 8), (7218967227592943, 8), (7242584918353827, 8), (7266099120397543, 8),
  (7289511381802768, 8), (7312823216379177, 8), (7336036104709717, 8), (7359151495152958, 8),
  (7382170804807341, 8), (7405095420439086, 8), (7427926699375392, 8), (7450665970364508, 8),
  (7473314534404142, 8), (7495873665539617, 8), (7518344611633117, 8), (7540728595105255, 8),
  (7563026813650199, 8), (7585240440925462, 8), (7607370627217453, 8), (7629418500083816, 8),
  (7651385164973523, 8), (7673271705825661, 8), (7695079185647781, 8), (7716808647074671, 8),
  (7738461112908327, 8), (7760037586639907, 8), (7781539052954374, 8), (7802966478218537, 8),
  (7824320810953135, 8), (7845602982289601, 8), (7866813906412105, 8), (7887954480985442, 8),
  (7909025587569320, 8), (7930028092019567, 8), (7950962844876748, 8), (7971830681742678, 8),
  (7992632423645287, 8), (8013368877392255, 8), (8034040835913861, 8), (8054649078595415, 8),
  (8075194371599674, 8), (8095677468179606, 8), (8116099108981829, 8), (8136460022341094, 8),
  (8156760924566105, 8), (8177002520216990, 8), (8197185502374726, 8), (8217310552902790, 8),
  (8237378342701310, 8), (8257389531953978, 8), (8277344770367969, 8), (8297244697407111, 8),
  (8317089942518531, 8), (8336881125352999, 8), (8356618855979178, 8), (8376303735091996, 8),
  (8395936354215317, 8), (8415517295899113, 8), (8435047133911313, 8), (8454526433424500, 8),
  (8473955751197625, 8), (8493335635752907, 8), (8512666627548054, 8), (8531949259143975, 8),
  (8551184055368114, 8), (8570371533473546, 8), (8589512203293972, 8), (8608606567394731, 8),
  (8627655121219974, 8), (8646658353236084, 8), (8665616745071496, 8), (8684530771652994, 8),
  (8703400901338616, 8), (8722227596047255, 8), (8741011311385056, 8), (8759752496768718, 8),
  (8778451595545777, 8), (8797109045111964, 8), (8815725277025733, 8), (8834300717120028, 8),
  (8852835785611381, 8), (8871330897206410, 8), (8889786461205798, 8), (8908202881605822, 8),
  (8926580557197500, 8), (8944919881663430, 8), (8963221243672382, 8), (8981485026971706, 8),
  (8999711610477613, 8), (4508950684181703, 9), (4518027335072843, 9), (4527085940384316, 9),
  (4536126680343176, 9), (4545149732971712, 9), (4554155274126806, 9), (4563143477538429, 9),
  (4572114514847278, 9), (4581068555641593, 9), (4590005767493165, 9), (4598926315992564, 9),
  (4607830364783599, 9), (4616718075597040, 9), (4625589608283617, 9), (4634445120846307, 9),
  (4643284769471948, 9), (4652108708562170, 9), (4660917090763686, 9), (4669710066997942, 9),
  (4678487786490152, 9), (4687250396797731, 9), (4695998043838133, 9), (4704730871916128, 9),
  (4713449023750511, 9), (4722152640500273, 9), (4730841861790235, 9), (4739516825736171, 9),
  (4748177668969421, 9), (4756824526661012, 9), (4765457532545303, 9), (4774076818943152, 9),
  (4782682516784637, 9), (4791274755631319, 9), (4799853663698080, 9), (4808419367874526, 9),
  (4816971993745979, 9), (4825511665614068, 9), (4834038506516914, 9), (4842552638248939, 9),
  (4851054181380291, 9), (4859543255275900, 9), (4868019978114181, 9), (4876484466905376, 9),
  (4884936837509559, 9), (4893377204654300, 9), (4901805681952010, 9), (4910222381916954, 9),
  (4918627415981956, 9), (4927020894514802, 9), (4935402926834336, 9), (4943773621226269, 9),
  (4952133084958699, 9), (4960481424297351, 9), (4968818744520548, 9), (4977145149933910, 9),
  (4985460743884789, 9), (4993765628776460, 9), (5002059906082047, 9), (5010343676358213, 9),
  (5018617039258611, 9), (5026880093547095, 9), (5035132937110710, 9), (5043375666972447, 9),
  (5051608379303790, 9), (5059831169437037, 9), (5068044131877423, 9), (5076247360315026, 9),
  (5084440947636478, 9), (5092624985936479, 9), (5100799566529109, 9), (5108964779958969, 9),
  (5117120716012115, 9), (5125267463726828, 9), (5133405111404200, 9), (5141533746618543, 9),
  (5149653456227633, 9), (5157764326382787, 9), (5165866442538771, 9), (5173959889463554, 9),
  (5182044751247903, 9), (5190121111314824, 9), (5198189052428851, 9), (5206248656705194, 9),
  (5214300005618730, 9), (5222343180012869, 9), (5230378260108265, 9), (5238405325511399, 9),
  (5246424455223032, 9), (5254435727646517, 9), (5262439220595992, 9), (5270435011304444, 9),
  (5278423176431646, 9), (5286403792071981, 9), (5294376933762139, 9), (5302342676488707, 9),
  (5310301094695635, 9), (5318252262291597, 9), (5326196252657243, 9), (5334133138652336, 9),
  (5342062992622795, 9), (5349985886407620, 9), (5357901891345734, 9), (5365811078282704, 9),
  (5373713517577384, 9), (5381609279108448, 9), (5389498432280838, 9), (5397381046032114, 9),
  (5405257188838716, 9), (5413126928722139, 9), (5420990333255014, 9), (5428847469567111, 9),
  (5436698404351256, 9), (5444543203869160, 9), (5452381933957177, 9), (5460214660031972, 9),
  (5468041447096119, 9), (5475862359743620, 9), (5483677462165344, 9), (5491486818154402, 9),
  (5499290491111440, 9), (5507088544049866, 9), (5514881039601008, 9), (5522668040019198, 9),
  (5530449607186794, 9), (5538225802619134, 9), (5545996687469424, 9), (5553762322533563, 9),
  (5561522768254906, 9), (5569278084728968, 9), (5577028331708056, 9), (5584773568605861, 9),
  (5592513854501971, 9), (5600249248146343, 9), (5607979807963711, 9), (5615705592057936, 9),
  (5623426658216311, 9), (5631143063913806, 9), (5638854866317258, 9), (5646562122289519, 9),
  (5654264888393546, 9), (5661963220896439, 9), (5669657175773442, 9), (5677346808711883, 9),
  (5685032175115073, 9), (5692713330106159, 9), (5700390328531931, 9), (5708063224966583, 9),
  (5715732073715430, 9), (5723396928818582, 9), (5731057844054582, 9), (5738714872943988, 9),
  (5746368068752928, 9), (5754017484496610, 9), (5761663172942787, 9), (5769305186615194, 9),
  (5776943577796935, 9), (5784578398533841, 9), (5792209700637790, 9), (5799837535689985, 9),
  (5807461955044203, 9), (5815083009830007, 9), (5822700750955920, 9), (5830315229112571, 9),
  (5837926494775804, 9), (5845534598209754, 9), (5853139589469895, 9), (5860741518406050, 9),
  (5868340434665379, 9), (5875936387695324, 9), (5883529426746537, 9), (5891119600875772, 9),
  (5898706958948746, 9), (5906291549642979, 9), (5913873421450596, 9), (5921452622681113, 9),
  (5929029201464188, 9), (5936603205752347, 9), (5944174683323685, 9), (5951743681784542, 9),
  (5959310248572154, 9), (5966874430957277, 9), (5974436276046788, 9), (5981995830786266, 9),
  (5989553141962542, 9), (5997108256206229, 9), (6004661219994239, 9), (6012212079652258, 9),
  (6019760881357221, 9), (6027307671139747, 9), (6034852494886568, 9), (6042395398342926, 9),
  (6049936427114958, 9), (6057475626672053, 9), (6065013042349200, 9), (6072548719349307, 9),
  (6080082702745506, 9), (6087615037483438, 9), (6095145768383522, 9), (6102674940143206, 9),
  (6110202597339195, 9), (6117728784429671, 9), (6125253545756488, 9), (6132776925547356, 9),
  (6140298967918007, 9), (6147819716874344, 9), (6155339216314575, 9), (6162857510031334, 9),
  (6170374641713784, 9), (6177890654949707, 9), (6185405593227579, 9), (6192919499938632, 9),
  (6200432418378900, 9), (6207944391751256, 9), (6215455463167429, 9), (6222965675650012, 9),
  (6230475072134463, 9), (6237983695471077, 9), (6245491588426968, 9), (6252998793688020, 9),
  (6260505353860835, 9), (6268011311474671, 9), (6275516708983365, 9), (6283021588767248, 9),
  (6290525993135043, 9), (6298029964325766, 9), (6305533544510600, 9), (6313036775794772, 9),
  (6320539700219415, 9), (6328042359763422, 9), (6335544796345287, 9), (6343047051824945, 9),
  (6350549168005594, 9), (6358051186635515, 9), (6365553149409881, 9), (6373055097972560, 9),
  (6380557073917904, 9), (6388059118792541, 9), (6395561274097150, 9), (6403063581288230, 9),
  (6410566081779871, 9), (6418068816945502, 9), (6425571828119652, 9), (6433075156599687, 9),
  (6440578843647549, 9), (6448082930491493, 9), (6455587458327806, 9), (6463092468322536, 9),
  (6470598001613199, 9), (6478104099310495, 9), (6485610802500013, 9), (6493118152243927, 9),
  (6500626189582695, 9), (6508134955536752, 9), (6515644491108190, 9), (6523154837282451, 9),
  (6530666035029997, 9), (6538178125307990, 9), (6545691149061964, 9), (6553205147227493, 9),
  (6560720160731854, 9), (6568236230495694, 9), (6575753397434686, 9), (6583271702461189, 9),
  (6590791186485901, 9), (6598311890419511, 9), (6605833855174354, 9), (6613357121666052, 9),
  (6620881730815168, 9), (6628407723548849, 9), (6635935140802469, 9), (6643464023521274, 9),
  (6650994412662021, 9), (6658526349194623, 9), (6666059874103789, 9), (6673595028390659, 9),
  (6681131853074451, 9), (6688670389194098, 9), (6696210677809884, 9), (6703752760005091, 9),
  (6711296676887634, 9), (6718842469591704, 9), (6726390179279410, 9), (6733939847142422, 9),
  (6741491514403614, 9), (6749045222318709, 9), (6756601012177926, 9), (6764158925307630, 9),
  (6771719003071976, 9), (6779281286874571, 9), (6786845818160118, 9), (6794412638416078, 9),
  (6801981789174327, 9), (6809553312012821, 9), (6817127248557254, 9), (6824703640482731, 9),
  (6832282529515437, 9), (6839863957434310, 9), (6847447966072719, 9), (6855034597320147, 9),
  (6862623893123872, 9), (6870215895490662, 9), (6877810646488462, 9), (6885408188248099, 9),
  (6893008562964978, 9), (6900611812900792, 9), (6908217980385237, 9), (6915827107817722, 9),
  (6923439237669102, 9), (6931054412483395, 9), (6938672674879527, 9), (6946294067553064, 9),
  (6953918633277959, 9), (6961546414908307, 9), (6969177455380104, 9), (6976811797713008, 9),
  (6984449485012115, 9), (6992090560469735, 9), (6999735067367182, 9), (7007383049076564, 9),
  (7015034549062588, 9), (7022689610884366, 9), (7030348278197234, 9), (7038010594754574, 9),
  (7045676604409654, 9), (7053346351117465, 9), (7061019878936573, 9), (7068697232030981, 9),
  (7076378454671996, 9), (7084063591240109, 9), (7091752686226885, 9), (7099445784236857, 9),
  (7107142929989438, 9), (7114844168320837, 9), (7122549544185991, 9), (7130259102660502, 9),
  (7137972888942588, 9), (7145690948355046, 9), (7153413326347225, 9), (7161140068497010, 9),
  (7168871220512819, 9), (7176606828235611, 9), (7184346937640908, 9), (7192091594840830, 9),
  (7199840846086136, 9), (7207594737768291, 9), (7215353316421532, 9), (7223116628724955, 9),
  (7230884721504620, 9), (7238657641735659, 9), (7246435436544407, 9), (7254218153210544, 9),
  (7262005839169251, 9), (7269798542013387, 9), (7277596309495670, 9), (7285399189530886, 9),
  (7293207230198107, 9), (7301020479742923, 9), (7308838986579699, 9), (7316662799293838, 9),
  (7324491966644070, 9), (7332326537564755, 9), (7340166561168200, 9), (7348012086747000, 9),
  (7355863163776391, 9), (7363719841916629, 9), (7371582171015380, 9), (7379450201110132, 9),
  (7387323982430631, 9), (7395203565401327, 9), (7403089000643849, 9), (7410980338979497, 9),
  (7418877631431752, 9), (7426780929228812, 9), (7434690283806145, 9), (7442605746809068, 9),
  (7450527370095343, 9), (7458455205737799, 9), (7466389306026976, 9), (7474329723473793, 9),
  (7482276510812236, 9), (7490229721002073, 9), (7498189407231594, 9), (7506155622920372, 9),
  (7514128421722052, 9), (7522107857527165, 9), (7530093984465967, 9), (7538086856911303, 9),
  (7546086529481501, 9), (7554093057043292, 9), (7562106494714752, 9), (7570126897868284, 9),
  (7578154322133613, 9), (7586188823400822, 9), (7594230457823413, 9), (7602279281821396, 9),
  (7610335352084410, 9), (7618398725574874, 9), (7626469459531171, 9), (7634547611470859, 9),
  (7642633239193921, 9), (7650726400786040, 9), (7658827154621911, 9), (7666935559368588, 9),
  (7675051673988863, 9), (7683175557744677, 9), (7691307270200573, 9), (7699446871227180, 9),
  (7707594421004730, 9), (7715749980026624, 9), (7723913609103018, 9), (7732085369364463, 9),
  (7740265322265574, 9), (7748453529588743, 9), (7756650053447888, 9), (7764854956292245, 9),
  (7773068300910201, 9), (7781290150433168, 9), (7789520568339498, 9), (7797759618458444, 9),
  (7806007364974164, 9), (7814263872429766, 9), (7822529205731400, 9), (7830803430152402, 9),
  (7839086611337472, 9), (7847378815306910, 9), (7855680108460896, 9), (7863990557583815, 9),
  (7872310229848641, 9), (7880639192821362, 9), (7888977514465459, 9), (7897325263146441, 9),
  (7905682507636423, 9), (7914049317118773, 9), (7922425761192794, 9), (7930811909878481, 9),
  (7939207833621315, 9), (7947613603297132, 9), (7956029290217037, 9), (7964454966132383, 9),
  (7972890703239808, 9), (7981336574186333, 9), (7989792652074523, 9), (7998259010467706, 9),
  (8006735723395265, 9), (8015222865357985, 9), (8023720511333475, 9), (8032228736781644, 9),
  (8040747617650263, 9), (8049277230380579, 9), (8057817651913010, 9), (8066368959692908, 9),
  (8074931231676393, 9), (8083504546336267, 9), (8092088982667991, 9), (8100684620195754, 9),
  (8109291538978607, 9), (8117909819616679, 9), (8126539543257480, 9), (8135180791602272, 9),
  (8143833646912540, 9), (8152498192016527, 9), (8161174510315877, 9), (8169862685792345, 9),
  (8178562803014607, 9), (8187274947145157, 9), (8195999203947299, 9), (8204735659792222, 9),
  (8213484401666183, 9), (8222245517177776, 9), (8231019094565305, 9), (8239805222704252, 9),
  (8248603991114853, 9), (8257415489969766, 9), (8266239810101859, 9), (8275077043012091, 9),
  (8283927280877507, 9), (8292790616559346, 9), (8301667143611258, 9), (8310556956287634, 9),
  (8319460149552058, 9), (8328376819085868, 9), (8337307061296851, 9), (8346250973328047, 9),
  (8355208653066683, 9), (8364180199153239, 9), (8373165710990636, 9), (8382165288753556, 9),
  (8391179033397904, 9), (8400207046670393, 9), (8409249431118281, 9), (8418306290099240, 9),
  (8427377727791373, 9), (8436463849203379, 9), (8445564760184858, 9), (8454680567436783, 9),
  (8463811378522109, 9), (8472957301876557, 9), (8482118446819541, 9), (8491294923565275, 9),
  (8500486843234032, 9), (8509694317863582, 9), (8518917460420797, 9), (8528156384813436, 9),
  (8537411205902103, 9), (8546682039512396, 9), (8555969002447234, 9), (8565272212499376, 9),
  (8574591788464137, 9), (8583927850152292, 9), (8593280518403188, 9), (8602649915098059, 9),
  (8612036163173545, 9), (8621439386635425, 9), (8630859710572571, 9), (8640297261171116, 9),
  (8649752165728846, 9), (8659224552669832, 9), (8668714551559279, 9), (8678222293118627, 9),
  (8687747909240890, 9), (8697291533006239, 9), (8706853298697843, 9), (8716433341817965, 9),
  (8726031799104322, 9), (8735648808546709, 9), (8745284509403903, 9), (8754939042220840, 9),
  (8764612548846079, 9), (8774305172449555, 9), (8784017057540632, 9), (8793748349986449, 9),
  (8803499197030589, 9), (8813269747312045, 9), (8823060150884524, 9), (8832870559236065, 9),
  (8842701125309004, 9), (8852552003520268, 9), (8862423349782030, 9), (8872315321522708, 9),
  (8882228077708341, 9), (8892161778864321, 9), (8902116587097521, 9), (8912092666118793, 9),
  (8922090181265874, 9), (8932109299526691, 9), (8942150189563080, 9), (8952213021734925, 9),
  (8962297968124726, 9), (8972405202562614, 9), (8982534900651808, 9), (8992687239794534, 9),
  (9002862399218415, 9), (4506530280001671, 10), (4511640952554414, 10), (4516763309700937, 10),
  (4521897444842670, 10), (4527043452363421, 10), (4532201427644093, 10), (4537371467077675, 10),
  (4542553668084513, 10), (4547748129127866, 10), (4552954949729758, 10), (4558174230487126, 10),
  (4563406073088282, 10), (4568650580329678, 10), (4573907856133000, 10), (4579178005562590, 10),
  (4584461134843200, 10), (4589757351378094, 10), (4595066763767500, 10), (4600389481827425, 10),
  (4605725616608836, 10), (4611075280417219, 10), (4616438586832529, 10), (4621815650729531, 10),
  (4627206588298551, 10), (4632611517066638, 10), (4638030555919158, 10), (4643463825121817, 10),
  (4648911446343136, 10), (4654373542677381, 10), (4659850238667963, 10), (4665341660331322, 10),
  (4670847935181296, 10), (4676369192254000, 10), (4681905562133226, 10), (4687457176976368, 10),
  (4693024170540891, 10), (4698606678211366, 10), (4704204837027066, 10), (4709818785710161, 10),
  (4715448664694506, 10), (4721094616155049, 10), (4726756784037879, 10), (4732435314090917, 10),
  (4738130353895279, 10), (4743842052897321, 10), (4749570562441390, 10), (4755316035803300, 10),
  (4761078628224540, 10), (4766858496947254, 10), (4772655801249996, 10), (4778470702484293, 10),
  (4784303364112028, 10), (4790153951743673, 10), (4796022633177395, 10), (4801909578439053, 10),
  (4807814959823118, 10), (4813738951934537, 10), (4819681731731566, 10), (4825643478569610, 10),
  (4831624374246084, 10), (4837624603046329, 10), (4843644351790623, 10), (4849683809882304, 10),
  (4855743169357042, 10), (4861822624933302, 10), (4867922374064016, 10), (4874042616989516, 10),
  (4880183556791754, 10), (4886345399449850, 10), (4892528353897013, 10), (4898732632078865, 10),
  (4904958449013222, 10), (4911206022851364, 10), (4917475574940852, 10), (4923767329889929, 10),
  (4930081515633554, 10), (4936418363501132, 10), (4942778108285972, 10), (4949160988316544, 10),
  (4955567245529582, 10), (4961997125545096, 10), (4968450877743354, 10), (4974928755343884, 10),
  (4981431015486581, 10), (4987957919314972, 10), (4994509732061714, 10), (5001086723136393, 10),
  (5007689166215707, 10), (5014317339336107, 10), (5020971524988971, 10), (5027652010218411, 10),
  (5034359086721785, 10), (5041093050953009, 10), (5047854204228777, 10), (5054642852837760, 10),
  (5061459308152921, 10), (5068303886747019, 10), (5075176910511440, 10), (5082078706778451, 10),
  (5089009608447008, 10), (5095969954112240, 10), (5102960088198741, 10), (5109980361097796, 10),
  (5117031129308703, 10), (5124112755584310, 10), (5131225609080951, 10), (5138370065512918, 10),
  (5145546507311640, 10), (5152755323789763, 10), (5159996911310277, 10), (5167271673460917, 10),
  (5174580021234012, 10), (5181922373211993, 10), (5189299155758790, 10), (5196710803217319, 10),
  (5204157758113324, 10), (5211640471365796, 10), (5219159402504244, 10), (5226715019893079, 10),
  (5234307800963396, 10), (5241938232452453, 10), (5249606810651154, 10), (5257314041659859, 10),
  (5265060441652869, 10), (5272846537151925, 10), (5280672865309124, 10), (5288539974199609, 10),
  (5296448423124473, 10), (5304398782924294, 10), (5312391636303756, 10), (5320427578167837, 10),
  (5328507215970054, 10), (5336631170073306, 10), (5344800074123848, 10), (5353014575438993, 10),
  (5361275335409148, 10), (5369583029914822, 10), (5377938349759291, 10), (5386342001117628, 10),
  (5394794706002856, 10), (5403297202750006, 10), (5411850246518930, 10), (5420454609816737, 10),
  (5429111083040791, 10), (5437820475043252, 10), (5446583613718193, 10), (5455401346612401, 10),
  (5464274541561010, 10), (5473204087349203, 10), (5482190894401267, 10), (5491235895498401, 10),
  (5500340046526700, 10), (5509504327256891, 10), (5518729742157431, 10), (5528017321242726, 10),
  (5537368120958284, 10), (5546783225104800, 10), (5556263745803205, 10), (5565810824502931, 10),
  (5575425633035710, 10), (5585109374717435, 10), (5594863285500723, 10), (5604688635181045, 10),
  (5614586728659416, 10), (5624558907264912, 10), (5634606550140417, 10), (5644731075695326, 10),
  (5654933943129089, 10), (5665216654029843, 10), (5675580754052609, 10), (5686027834681879, 10),
  (5696559535083763, 10), (5707177544053228, 10), (5717883602062376, 10), (5728679503416143, 10),
  (5739567098522275, 10), (5750548296282965, 10), (5761625066616077, 10), (5772799443114533, 10),
  (5784073525853057, 10), (5795449484352247, 10), (5806929560710705, 10), (5818516072916837, 10),
  (5830211418352898, 10), (5842018077504866, 10), (5853938617892883, 10), (5865975698238278, 10),
  (5878132072884495, 10), (5890410596490835, 10), (5902814229019507, 10), (5915346041038385, 10),
  (5928009219363828, 10), (5940807073070186, 10), (5953743039895076, 10), (5966820693072246, 10),
  (5980043748626871, 10), (5993416073171501, 10), (6006941692244635, 10), (6020624799238042, 10),
  (6034469764963642, 10), (6048481147915921, 10), (6062663705291706, 10), (6077022404835638, 10),
  (6091562437586984, 10), (6106289231611712, 10), (6121208466812967, 10), (6136326090923620, 10),
  (6151648336796364, 10), (6167181741120261, 10), (6182933164707870, 10), (6198909814514431, 10),
  (6215119267570310, 10), (6231569497030496, 10), (6248268900570798, 10), (6265226331390044, 10),
  (6282451132111748, 10), (6299953171918098, 10), (6317742887294690, 10), (6335831326817282, 10),
  (6354230200473328, 10), (6372951934082781, 10), (6392009729466565, 10), (6411417631109686, 10),
  (6431190600181969, 10), (6451344596916629, 10), (6471896672509564, 10), (6492865071896074, 10),
  (6514269348993282, 10), (6536130496274638, 10), (6558471090878075, 10), (6581315459855364, 10),
  (6604689867664237, 10), (6628622729609047, 10), (6653144855678491, 10), (6678289730147300, 10),
  (6704093833450760, 10), (6730597014269936, 10), (6757842921565333, 10), (6785879508579586, 10),
  (6814759623746685, 10), (6844541707201840, 10), (6875290616464865, 10), (6907078611263220, 10),
  (6939986535919906, 10), (6974105249039822, 10), (7009537365515220, 10), (7046399396786353, 10),
  (7084824404285172, 10), (7124965321750639, 10), (7166999160305554, 10), (7211132394711981, 10),
  (7257607954300109, 10), (7306714431017697, 10), (7358798409147790, 10), (7414281284610755, 10),
  (7473682698560295, 10), (7537653987696879, 10), (7607027294727159, 10), (7682890090955240, 10),
  (7766702798869062, 10), (7860493519187626, 10), (7967200075571388, 10), (8091318015517658, 10),
  (8240257755915183, 10), (8427615761738278, 10), (8682946060061132, 10), (4547340665486037, 11)]

theorem normalWRow_chk : chkRows normalWLit normalWRow = true := by decide +kernel

def normalFRow : List (Nat × Nat) := [
  (4503599627370496, 62), (8925417384395501, 61), (8863769872045069, 61), (8811122488116754, 61),
  (8763920828644426, 61), (8720494327777582, 61), (8679897284533552, 61), (8641531208577255, 61),
  (8604987973160782, 61), (8569973927560589, 61), (8536269068046935, 61), (8503703277134910, 61),
  (8472141632330893, 61), (8441474873620500, 61), (8411612969925530, 61), (8382480632521772, 61),
  (8354014098383616, 61), (8326158768649483, 61), (8298867438881281, 61), (8272098948751398, 61),
  (8245817135274283, 61), (8219990009818835, 61), (8194589102840858, 61), (8169588936192288, 61),
  (8144966593775776, 61), (8120701368933941, 61), (8096774472375050, 61), (8073168788340293, 61),
  (8049868669572527, 61), (8026859763761134, 61), (8004128865722847, 61), (7981663790779705, 61),
  (7959453265714971, 61), (7937486834398489, 61), (7915754775727008, 61), (7894248031960400, 61),
  (7872958145879629, 61), (7851877205467409, 61), (7830997795033468, 61), (7810312951884930, 61),
  (7789816127787557, 61), (7769501154582337, 61), (7749362213419557, 61), (7729393807153198, 61),
  (7709590735505451, 61), (7689948072667097, 61), (7670461147046273, 61), (7651125522917585, 61),
  (7631936983756782, 61), (7612891517074446, 61), (7593985300586141, 61), (7575214689577007, 61),
  (7556576205336319, 61), (7538066524552658, 61), (7519682469573355, 61), (7501420999443121, 61),
  (7483279201646563, 61), (7465254284487731, 61), (7447343570047305, 61), (7429544487664431, 61),
  (7411854567895947, 61), (7394271436910657, 61), (7376792811280746, 61), (7359416493136248, 61),
  (7342140365651925, 61), (7324962388838921, 61), (7307880595616252, 61), (7290893088139575, 61),
  (7273998034366806, 61), (7257193664842050, 61), (7240478269681025, 61), (7223850195742639, 61),
  (7207307843972791, 61), (7190849666907659, 61), (7174474166324844, 61), (7158179891031744, 61),
  (7141965434781422, 61), (7125829434307027, 61), (7109770567466593, 61), (7093787551490667, 61),
  (7077879141325852, 61), (7062044128067872, 61), (7046281337478280, 61), (7030589628579391, 61),
  (7014967892322399, 61), (6999415050324069, 61), (6983930053667682, 61), (6968511881764280, 61),
  (6953159541270502, 61), (6937872065059601, 61), (6922648511242454, 61), (6907487962235612, 61),
  (6892389523873630, 61), (6877352324563127, 61), (6862375514476178, 61), (6847458264780813, 61),
  (6832599766906544, 61), (6817799231842975, 61), (6803055889469683, 61), (6788368987915668, 61),
  (6773737792946787, 61), (6759161587379669, 61), (6744639670520734, 61), (6730171357628986, 61),
  (6715755979401373, 61), (6701392881479532, 61), (6687081423976860, 61), (6672820981024873, 61),
  (6658610940337903, 61), (6644450702795220, 61), (6630339682039739, 61), (6616277304092497, 61),
  (6602263006982154, 61), (6588296240388799, 61), (6574376465301382, 61), (6560503153688147, 61),
  (6546675788179458, 61), (6532893861762441, 61), (6519156877486920, 61), (6505464348182131, 61),
  (6491815796183720, 61), (6478210753070588, 61), (6464648759411142, 61), (6451129364518527, 61),
  (6437652126214483, 61), (6424216610601418, 61), (6410822391842378, 61), (6397469051948565, 61),
  (6384156180574086, 61), (6370883374817642, 61), (6357650239030862, 61), (6344456384633009, 61),
  (6331301429931807, 61), (6318184999950135, 61), (6305106726258356, 61), (6292066246812059, 61),
  (6279063205794989, 61), (6266097253466987, 61), (6253168046016710, 61), (6240275245418983, 61),
  (6227418519296578, 61), (6214597540786263, 61), (6201811988408964, 61), (6189061545943875, 61),
  (6176345902306376, 61), (6163664751429619, 61), (6151017792149643, 61), (6138404728093888, 61),
  (6125825267572997, 61), (6113279123475768, 61), (6100766013167165, 61), (6088285658389259, 61),
  (6075837785165012, 61), (6063422123704794, 61), (6051038408315547, 61), (6038686377312491, 61),
  (6026365772933300, 61), (6014076341254654, 61), (6001817832111088, 61), (5989589999016061, 61),
  (5977392599085176, 61), (5965225392961470, 61), (5953088144742709, 61), (5940980621910631, 61),
  (5928902595262056, 61), (5916853838841816, 61), (5904834129877450, 61), (5892843248715582, 61),
  (5880880978759966, 61), (5868947106411110, 61), (5857041421007454, 61), (5845163714768038, 61),
  (5833313782736622, 61), (5821491422727211, 61), (5809696435270939, 61), (5797928623564276, 61),
  (5786187793418510, 61), (5774473753210475, 61), (5762786313834477, 61), (5751125288655393, 61),
  (5739490493462897, 61), (5727881746426790, 61), (5716298868053395, 61), (5704741681142987, 61),
  (5693210010748230, 61), (5681703684133589, 61), (5670222530735693, 61), (5658766382124613, 61),
  (5647335071966047, 61), (5635928435984359, 61), (5624546311926476, 61), (5613188539526599, 61),
  (5601854960471721, 61), (5590545418367905, 61), (5579259758707341, 61), (5567997828836113, 61),
  (5556759477922697, 61), (5545544556927148, 61), (5534352918570960, 61), (5523184417307593, 61),
  (5512038909293628, 61), (5500916252360557, 61), (5489816305987173, 61), (5478738931272549, 61),
  (5467683990909603, 61), (5456651349159208, 61), (5445640871824863, 61), (5434652426227881, 61),
  (5423685881183110, 61), (5412741106975143, 61), (5401817975335037, 61), (5390916359417492, 61),
  (5380036133778516, 61), (5369177174353534, 61), (5358339358435943, 61), (5347522564656103, 61),
  (5336726672960747, 61), (5325951564592810, 61), (5315197122071647, 61), (5304463229173658, 61),
  (5293749770913283, 61), (5283056633524379, 61), (5272383704441956, 61), (5261730872284273, 61),
  (5251098026835275, 61), (5240485059027377, 61), (5229891860924569, 61), (5219318325705856, 61),
  (5208764347649000, 61), (5198229822114581, 61), (5187714645530355, 61), (5177218715375903, 61),
  (5166741930167575, 61), (5156284189443704, 61), (5145845393750103, 61), (5135425444625827, 61),
  (5125024244589196, 61), (5114641697124076, 61), (5104277706666407, 61), (5093932178590980, 61),
  (5083605019198449, 61), (5073296135702580, 61), (5063005436217727, 61), (5052732829746533, 61),
  (5042478226167849, 61), (5032241536224866, 61), (5022022671513459, 61), (5011821544470735, 61),
  (5001638068363778, 61), (4991472157278596, 61), (4981323726109255, 61), (4971192690547205, 61),
  (4961078967070786, 61), (4950982472934917, 61), (4940903126160959, 61), (4930840845526751, 61),
  (4920795550556818, 61), (4910767161512741, 61), (4900755599383687, 61), (4890760785877106, 61),
  (4880782643409574, 61), (4870821095097792, 61), (4860876064749737, 61), (4850947476855956, 61),
  (4841035256581001, 61), (4831139329755010, 61), (4821259622865420, 61), (4811396063048819, 61),
  (4801548578082926, 61), (4791717096378704, 61), (4781901546972597, 61), (4772101859518894, 61),
  (4762317964282211, 61), (4752549792130100, 61), (4742797274525762, 61), (4733060343520891, 61),
  (4723338931748620, 61), (4713632972416578, 61), (4703942399300059, 61), (4694267146735299, 61),
  (4684607149612849, 61), (4674962343371060, 61), (4665332663989661, 61), (4655718047983442, 61),
  (4646118432396025, 61), (4636533754793738, 61), (4626963953259581, 61), (4617408966387276, 61),
  (4607868733275417, 61), (4598343193521698, 61), (4588832287217238, 61), (4579335954940981, 61),
  (4569854137754182, 61), (4560386777194982, 61), (4550933815273051, 61), (4541495194464317, 61),
  (4532070857705778, 61), (4522660748390372, 61), (4513264810361943, 61), (4503882987910265, 61),
  (8989030451532288, 60), (8970322938193182, 60), (8951643327000127, 60), (8932991510003545, 60),
  (8914367380098124, 60), (8895770831013702, 60), (8877201757306278, 60), (8858660054349157, 60),
  (8840145618324216, 60), (8821658346213293, 60), (8803198135789697, 60), (8784764885609836, 60),
  (8766358495004966, 60), (8747978864073047, 60), (8729625893670717, 60), (8711299485405377, 60),
  (8692999541627381, 60), (8674725965422339, 60), (8656478660603519, 60), (8638257531704355, 60),
  (8620062483971061, 60), (8601893423355336, 60), (8583750256507179, 60), (8565632890767788, 60),
  (8547541234162567, 60), (8529475195394216, 60), (8511434683835920, 60), (8493419609524628, 60),
  (8475429883154414, 60), (8457465416069938, 60), (8439526120259983, 60), (8421611908351080, 60),
  (8403722693601220, 60), (8385858389893644, 60), (8368018911730714, 60), (8350204174227868, 60),
  (8332414093107648, 60), (8314648584693807, 60), (8296907565905498, 60), (8279190954251522, 60),
  (8261498667824673, 60), (8243830625296128, 60), (8226186745909936, 60), (8208566949477553, 60),
  (8190971156372463, 60), (8173399287524859, 60), (8155851264416394, 60), (8138327009074995, 60),
  (8120826444069744, 60), (8103349492505824, 60), (8085896078019527, 60), (8068466124773322, 60),
  (8051059557450989, 60), (8033676301252806, 60), (8016316281890803, 60), (7998979425584070, 60),
  (7981665659054120, 60), (7964374909520318, 60), (7947107104695356, 60), (7929862172780788, 60),
  (7912640042462616, 60), (7895440642906934, 60), (7878263903755624, 60), (7861109755122095, 60),
  (7843978127587087, 60), (7826868952194515, 60), (7809782160447367, 60), (7792717684303649, 60),
  (7775675456172380, 60), (7758655408909634, 60), (7741657475814627, 60), (7724681590625853, 60),
  (7707727687517261, 60), (7690795701094486, 60), (7673885566391113, 60), (7656997218864989, 60),
  (7640130594394585, 60), (7623285629275388, 60), (7606462260216342, 60), (7589660424336331, 60),
  (7572880059160701, 60), (7556121102617817, 60), (7539383493035672, 60), (7522667169138518, 60),
  (7505972070043554, 60), (7489298135257636, 60), (7472645304674032, 60), (7456013518569214, 60),
  (7439402717599687, 60), (7422812842798847, 60), (7406243835573883, 60), (7389695637702709, 60),
  (7373168191330933, 60), (7356661438968857, 60), (7340175323488512, 60), (7323709788120729, 60),
  (7307264776452236, 60), (7290840232422794, 60), (7274436100322360, 60), (7258052324788287, 60),
  (7241688850802543, 60), (7225345623688978, 60), (7209022589110605, 60), (7192719693066922, 60),
  (7176436881891254, 60), (7160174102248135, 60), (7143931301130707, 60), (7127708425858154, 60),
  (7111505424073164, 60), (7095322243739416, 60), (7079158833139096, 60), (7063015140870436, 60),
  (7046891115845285, 60), (7030786707286705, 60), (7014701864726586, 60), (6998636538003296, 60),
  (6982590677259351, 60), (6966564232939112, 60), (6950557155786499, 60), (6934569396842746, 60),
  (6918600907444158, 60), (6902651639219911, 60), (6886721544089864, 60), (6870810574262399, 60),
  (6854918682232279, 60), (6839045820778533, 60), (6823191942962365, 60), (6807357002125075, 60),
  (6791540951886013, 60), (6775743746140550, 60), (6759965339058066, 60), (6744205685079966, 60),
  (6728464738917711, 60), (6712742455550874, 60), (6697038790225212, 60), (6681353698450760, 60),
  (6665687135999942, 60), (6650039058905710, 60), (6634409423459689, 60), (6618798186210352, 60),
  (6603205303961208, 60), (6587630733769010, 60), (6572074432941982, 60), (6556536359038063, 60),
  (6541016469863171, 60), (6525514723469480, 60), (6510031078153719, 60), (6494565492455489, 60),
  (6479117925155591, 60), (6463688335274376, 60), (6448276682070112, 60), (6432882925037363, 60),
  (6417507023905390, 60), (6402148938636563, 60), (6386808629424793, 60), (6371486056693976, 60),
  (6356181181096456, 60), (6340893963511500, 60), (6325624365043793, 60), (6310372347021944, 60),
  (6295137870997005, 60), (6279920898741013, 60), (6264721392245537, 60), (6249539313720246, 60),
  (6234374625591489, 60), (6219227290500888, 60), (6204097271303946, 60), (6188984531068668, 60),
  (6173889033074202, 60), (6158810740809478, 60), (6143749617971880, 60), (6128705628465914, 60),
  (6113678736401903, 60), (6098668906094681, 60), (6083676102062314, 60), (6068700289024824, 60),
  (6053741431902927, 60), (6038799495816787, 60), (6023874446084778, 60), (6008966248222263, 60),
  (5994074867940378, 60), (5979200271144836, 60), (5964342423934735, 60), (5949501292601384, 60),
  (5934676843627138, 60), (5919869043684242, 60), (5905077859633690, 60), (5890303258524094, 60),
  (5875545207590561, 60), (5860803674253589, 60), (5846078626117962, 60), (5831370030971667, 60),
  (5816677856784815, 60), (5802002071708575, 60), (5787342644074117, 60), (5772699542391564, 60),
  (5758072735348962, 60), (5743462191811248, 60), (5728867880819239, 60), (5714289771588622, 60),
  (5699727833508962, 60), (5685182036142713, 60), (5670652349224244, 60), (5656138742658868, 60),
  (5641641186521887, 60), (5627159651057646, 60), (5612694106678586, 60), (5598244523964324, 60),
  (5583810873660726, 60), (5569393126678995, 60), (5554991254094772, 60), (5540605227147239, 60),
  (5526235017238234, 60), (5511880595931375, 60), (5497541934951194, 60), (5483219006182272, 60),
  (5468911781668394, 60), (5454620233611703, 60), (5440344334371867, 60), (5426084056465251, 60),
  (5411839372564101, 60), (5397610255495734, 60), (5383396678241735, 60), (5369198613937165, 60),
  (5355016035869771, 60), (5340848917479212, 60), (5326697232356287, 60), (5312560954242171, 60),
  (5298440057027661, 60), (5284334514752428, 60), (5270244301604277, 60), (5256169391918414, 60),
  (5242109760176720, 60), (5228065381007033, 60), (5214036229182440, 60), (5200022279620567, 60),
  (5186023507382889, 60), (5172039887674036, 60), (5158071395841114, 60), (5144118007373025, 60),
  (5130179697899804, 60), (5116256443191951, 60), (5102348219159781, 60), (5088455001852774, 60),
  (5074576767458932, 60), (5060713492304146, 60), (5046865152851567, 60), (5033031725700984, 60),
  (5019213187588211, 60), (5005409515384472, 60), (4991620686095806, 60), (4977846676862466, 60),
  (4964087464958332, 60), (4950343027790326, 60), (4936613342897833, 60), (4922898387952135, 60),
  (4909198140755842, 60), (4895512579242332, 60), (4881841681475204, 60), (4868185425647724, 60),
  (4854543790082291, 60), (4840916753229896, 60), (4827304293669598, 60), (4813706390107997, 60),
  (4800123021378721, 60), (4786554166441910, 60), (4772999804383713, 60), (4759459914415787, 60),
  (4745934475874803, 60), (4732423468221957, 60), (4718926871042489, 60), (4705444664045200, 60),
  (4691976827061989, 60), (4678523340047376, 60), (4665084183078049, 60), (4651659336352407, 60),
  (4638248780190107, 60), (4624852495031622, 60), (4611470461437802, 60), (4598102660089436, 60),
  (4584749071786831, 60), (4571409677449380, 60), (4558084458115152, 60), (4544773394940472, 60),
  (4531476469199519, 60), (4518193662283921, 60), (4504924955702357, 60), (8983340662160335, 59),
  (8956859540317931, 59), (8930406509592511, 59), (8903981533930111, 59), (8877584577507056, 59),
  (8851215604729220, 59), (8824874580231307, 59), (8798561468876136, 59), (8772276235753937, 59),
  (8746018846181661, 59), (8719789265702290, 59), (8693587460084171, 59), (8667413395320344, 59),
  (8641267037627894, 59), (8615148353447305, 59), (8589057309441823, 59), (8562993872496833, 59),
  (8536958009719244, 59), (8510949688436882, 59), (8484968876197895, 59), (8459015540770163, 59),
  (8433089650140729, 59), (8407191172515222, 59), (8381320076317306, 59), (8355476330188127, 59),
  (8329659902985779, 59), (8303870763784769, 59), (8278108881875502, 59), (8252374226763767, 59),
  (8226666768170235, 59), (8200986476029971, 59), (8175333320491951, 59), (8149707271918584, 59),
  (8124108300885255, 59), (8098536378179864, 59), (8072991474802388, 59), (8047473561964440, 59),
  (8021982611088845, 59), (7996518593809221, 59), (7971081481969574, 59), (7945671247623899, 59),
  (7920287863035787, 59), (7894931300678053, 59), (7869601533232357, 59), (7844298533588849, 59),
  (7819022274845815, 59), (7793772730309332, 59), (7768549873492941, 59), (7743353678117316, 59),
  (7718184118109956, 59), (7693041167604874, 59), (7667924800942306, 59), (7642834992668422, 59),
  (7617771717535047, 59), (7592734950499400, 59), (7567724666723827, 59), (7542740841575561, 59),
  (7517783450626475, 59), (7492852469652855, 59), (7467947874635182, 59), (7443069641757918, 59),
  (7418217747409304, 59), (7393392168181170, 59), (7368592880868753, 59), (7343819862470522, 59),
  (7319073090188016, 59), (7294352541425692, 59), (7269658193790777, 59), (7244990025093139, 59),
  (7220348013345160, 59), (7195732136761621, 59), (7171142373759597, 59), (7146578702958365, 59),
  (7122041103179315, 59), (7097529553445878, 59), (7073044032983458, 59), (7048584521219381, 59),
  (7024150997782844, 59), (6999743442504886, 59), (6975361835418360, 59), (6951006156757918, 59),
  (6926676386960009, 59), (6902372506662880, 59), (6878094496706601, 59), (6853842338133081, 59),
  (6829616012186114, 59), (6805415500311422, 59), (6781240784156715, 59), (6757091845571758, 59),
  (6732968666608453, 59), (6708871229520929, 59), (6684799516765642, 59), (6660753511001487, 59),
  (6636733195089924, 59), (6612738552095109, 59), (6588769565284041, 59), (6564826218126719, 59),
  (6540908494296309, 59), (6517016377669322, 59), (6493149852325809, 59), (6469308902549559, 59),
  (6445493512828315, 59), (6421703667853999, 59), (6397939352522952, 59), (6374200551936179, 59),
  (6350487251399613, 59), (6326799436424390, 59), (6303137092727132, 59), (6279500206230247, 59),
  (6255888763062238, 59), (6232302749558027, 59), (6208742152259293, 59), (6185206957914817, 59),
  (6161697153480844, 59), (6138212726121458, 59), (6114753663208973, 59), (6091319952324327, 59),
  (6067911581257501, 59), (6044528538007946, 59), (6021170810785025, 59), (5997838388008464, 59),
  (5974531258308827, 59), (5951249410527996, 59), (5927992833719667, 59), (5904761517149866, 59),
  (5881555450297472, 59), (5858374622854757, 59), (5835219024727947, 59), (5812088646037786, 59),
  (5788983477120130, 59), (5765903508526539, 59), (5742848731024902, 59), (5719819135600065, 59),
  (5696814713454483, 59), (5673835456008879, 59), (5650881354902931, 59), (5627952401995966, 59),
  (5605048589367674, 59), (5582169909318839, 59), (5559316354372087, 59), (5536487917272654, 59),
  (5513684590989163, 59), (5490906368714429, 59), (5468153243866275, 59), (5445425210088371, 59),
  (5422722261251084, 59), (5400044391452359, 59), (5377391595018604, 59), (5354763866505609, 59),
  (5332161200699471, 59), (5309583592617546, 59), (5287031037509425, 59), (5264503530857917, 59),
  (5242001068380069, 59), (5219523646028191, 59), (5197071259990913, 59), (5174643906694260, 59),
  (5152241582802749, 59), (5129864285220507, 59), (5107512011092408, 59), (5085184757805246, 59),
  (5062882522988913, 59), (5040605304517613, 59), (5018353100511093, 59), (4996125909335907, 59),
  (4973923729606691, 59), (4951746560187474, 59), (4929594400193011, 59), (4907467248990136, 59),
  (4885365106199154, 59), (4863287971695242, 59), (4841235845609895, 59), (4819208728332383, 59),
  (4797206620511247, 59), (4775229523055819, 59), (4753277437137771, 59), (4731350364192689, 59),
  (4709448305921685, 59), (4687571264293035, 59), (4665719241543842, 59), (4643892240181739, 59),
  (4622090262986618, 59), (4600313313012394, 59), (4578561393588801, 59), (4556834508323216, 59),
  (4535132661102529, 59), (4513455856095032, 59), (8983608195504717, 58), (8940354781622889, 58),
  (8897151480593071, 58), (8853998303042457, 58), (8810895260181094, 58), (8767842363806119, 58),
  (8724839626306072, 58), (8681887060665280, 58), (8638984680468335, 58), (8596132499904643, 58),
  (8553330533773063, 58), (8510578797486630, 58), (8467877307077365, 58), (8425226079201171, 58),
  (8382625131142824, 58), (8340074480821055, 58), (8297574146793722, 58), (8255124148263080, 58),
  (8212724505081153, 58), (8170375237755198, 58), (8128076367453273, 58), (8085827916009915, 58),
  (8043629905931910, 58), (8001482360404185, 58), (7959385303295799, 58), (7917338759166053, 58),
  (7875342753270709, 58), (7833397311568332, 58), (7791502460726741, 58), (7749658228129594, 58),
  (7707864641883090, 58), (7666121730822792, 58), (7624429524520595, 58), (7582788053291810, 58),
  (7541197348202392, 58), (7499657441076304, 58), (7458168364503022, 58), (7416730151845178, 58),
  (7375342837246363, 58), (7334006455639062, 58), (7292721042752762, 58), (7251486635122202, 58),
  (7210303270095789, 58), (7169170985844177, 58), (7128089821369017, 58), (7087059816511871, 58),
  (7046081011963310, 58), (7005153449272183, 58), (6964277170855079, 58), (6923452220005963, 58),
  (6882678640906019, 58), (6841956478633681, 58), (6801285779174862, 58), (6760666589433402, 58),
  (6720098957241712, 58), (6679582931371641, 58), (6639118561545567, 58), (6598705898447707, 58),
  (6558344993735663, 58), (6518035900052209, 58), (6477778671037311, 58), (6437573361340409, 58),
  (6397420026632945, 58), (6357318723621159, 58), (6317269510059151, 58), (6277272444762215, 58),
  (6237327587620465, 58), (6197434999612742, 58), (6157594742820820, 58), (6117806880443920, 58),
  (6078071476813534, 58), (6038388597408570, 58), (5998758308870829, 58), (5959180679020817, 58),
  (5919655776873906, 58), (5880183672656850, 58), (5840764437824672, 58), (5801398145077919, 58),
  (5762084868380312, 58), (5722824682976787, 58), (5683617665411947, 58), (5644463893548932, 58),
  (5605363446588719, 58), (5566316405089873, 58), (5527322850988742, 58), (5488382867620128, 58),
  (5449496539738442, 58), (5410663953539350, 58), (5371885196681935, 58), (5333160358311378, 58),
  (5294489529082190, 58), (5255872801181991, 58), (5217310268355868, 58), (5178802025931328, 58),
  (5140348170843850, 58), (5101948801663073, 58), (5063604018619630, 58), (5025313923632643, 58),
  (4987078620337912, 58), (4948898214116808, 58), (4910772812125901, 58), (4872702523327343, 58),
  (4834687458520021, 58), (4796727730371527, 58), (4758823453450945, 58), (4720974744262504, 58),
  (4683181721280108, 58), (4645444504982785, 58), (4607763217891079, 58), (4570137984604418, 58),
  (4532568931839488, 58), (8990112376939310, 57), (8915199771130925, 57), (8840400312872491, 57),
  (8765714273345803, 57), (8691141928383706, 57), (8616683558560505, 57), (8542339449284929, 57),
  (8468109890895756, 57), (8393995178760185, 57), (8319995613375059, 57), (8246111500471049, 57),
  (8172343151119893, 57), (8098690881844822, 57), (8025155014734277, 57), (7951735877559057, 57),
  (7878433803893014, 57), (7805249133237439, 57), (7732182211149281, 57), (7659233389373353, 57),
  (7586403025978673, 57), (7513691485499113, 57), (7441099139078522, 57), (7368626364620511, 57),
  (7296273546943086, 57), (7224041077938324, 57), (7151929356737313, 57), (7079938789880565, 57),
  (7008069791494141, 57), (6936322783471727, 57), (6864698195662918, 57), (6793196466067980, 57),
  (6721818041039378, 57), (6650563375490358, 57), (6579432933110912, 57), (6508427186591448, 57),
  (6437546617854521, 57), (6366791718294991, 57), (6296162989029011, 57), (6225660941152237, 57),
  (6155286096007720, 57), (6085038985463924, 57), (6014920152203377, 57), (5944930150022452, 57),
  (5875069544142848, 57), (5805338911535342, 57), (5735738841256428, 57), (5666269934798514, 57),
  (5596932806454349, 57), (5527728083696448, 57), (5458656407572281, 57), (5389718433116083, 57),
  (5320914829778158, 57), (5252246281872651, 57), (5183713489044787, 57), (5115317166758668, 57),
  (5047058046806785, 57), (4978936877842489, 57), (4910954425936727, 57), (4843111475160489, 57),
  (4775408828194461, 57), (4707847306967525, 57), (4640427753325856, 57), (4573151029734496, 57),
  (4506018020013419, 57), (8878059260220548, 56), (8744373577824286, 56), (8610980898197683, 56),
  (8477883176080995, 56), (8345082417484706, 56), (8212580681679950, 56), (8080380083296689, 56),
  (7948482794537107, 56), (7816891047512382, 56), (7685607136711647, 56), (7554633421612780, 56),
  (7423972329445487, 56), (7293626358118104, 56), (7163598079320604, 56), (7033890141817470, 56),
  (6904505274945370, 56), (6775446292332059, 56), (6646716095854514, 56), (6518317679856149, 56),
  (6390254135644949, 56), (6262528656296664, 56), (6135144541789739, 56), (6008105204501539, 56),
  (5881414175098683, 56), (5755075108857967, 56), (5629091792458525, 56), (5503468151290635, 56),
  (5378208257331948, 56), (5253316337648119, 56), (5128796783581859, 56), (5004654160702586, 56),
  (4880893219598174, 56), (4757518907601140, 56), (4634536381554144, 56), (4511951021734255, 56),
  (8779536894144933, 55), (8535989063649803, 55), (8293270847751162, 55), (8051395129756673, 55),
  (7810375424956559, 55), (7570225929784636, 55), (7330961576350022, 55), (7092598093104495, 55),
  (6855152072546430, 55), (6618641047027335, 55), (6383083573928801, 55), (6148499331725840, 55),
  (5914909228759662, 55), (5682335526925719, 55), (5450801982963436, 55), (5220334010642268, 55),
  (4990958867915173, 55), (4762705874110713, 55), (4535606663536245, 55), (8619390967151551, 54),
  (8170019095284712, 54), (7723178912823413, 54), (7278959409905855, 54), (6837458598363947, 54),
  (6398785026513714, 54), (5963059662609209, 54), (5530418268269099, 54), (5101014435019652, 54),
  (4675023536982894, 54), (8505295959203018, 53), (7668248665680542, 53), (6839466588438658, 53),
  (6019628135275475, 53), (5209571922741247, 53), (8820729961456539, 52), (7246835177790543, 52),
  (5701387984896080, 52), (8380596606698071, 51), (5447287306025925, 51), (5293550121292791, 50)]

theorem normalFRow_chk : chkRows normalFLit normalFRow = true := by decide +kernel

end Crazy
