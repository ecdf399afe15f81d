/- The constant tables of /repo/gadgets/src/hashes/rescue.rs and poseidon.rs. -/
import Verif.Model.Rescue

namespace Zkp

/-- rescue.rs:303-310 and 312-325 `str2p`, `new_fp255` (poseidon.rs:519-526, 528-541 alike): the decimal strings are read
into the field (`from_str` of ark-ff, external: it reduces modulo the order). -/
def readTable {F : Type} [Field F] (t : List (List Nat)) : List (List F) := t.map fun r => r.map Nat.cast

/-- rescue.rs:51-67 `_CONSTANTS_MATRIX`. -/
def Rescue.MATRIX : List (List Nat) :=
  [[1727009077431585087915540656539954534780777332184950406202646746275199217608,
    13540180854142779318387506093563803091263161877004989521740898372515032806705,
    10612957846141125234745931852226986716584648319830558782678359506375923499159],
   [5297766442418242490178207238435339074762251996759746754547126551178563896020,
    8839191144842497789547275530090062910960637380659447844238808212289648631251,
    11815940809319497569758915597574519690246728775737558100219686360032900828094],
   [7380491535074041694005919481791705649661373282327647188984564535382271644294,
    4073717453647711204997163819916439215770634741192958328872252346407126471025,
    12611841555471625429590270932443304114397687320232742344089835243107459899095]]

/-- rescue.rs:70-296 `_CONSTANTS_CONSTANT`. -/
def Rescue.CONSTANTS : List (List Nat) :=
  [[12769180023052250270311692729191801253904905578230519201957672068471212580693,
    1521613489211025647495719579262333768015696501738145911352210890120622630165,
    1026651289592356771951978355694508228824568426157920915274642188971734396101],
   [12540922316541587696236134115889122422747332277293283596550877520791631080150,
    1981000063383220069496173954274238217621235584192232023578205209215797100323,
    5789795947997912880466289342703963180032067833105622704223174527643941061589],
   [3569051189808788857184353212437216793616627759895253898513893939409784275151,
    3700574960844093691174727002959422465392354647023911568223100145375939050927,
    3389795102056716154944072963035322276363913344188885352913393242281651963951],
   [3922179986724740239033875768756421762790876936762044072934302152539246316705,
    9107062670761817214576003198540172938187448362948497717722951519317641272887,
    11373086417573305160395459851359074326670257255008786832367972107171102482092],
   [352020830305489436251321228146453931159813454684424638218069959229632878277,
    14413234028989355754190955592750720458622821651527848940282906490720035993628,
    7764588369571627500970668374971482221360194342851569455390056971510532800692],
   [3019639905454726812405523304204733362154434449689241138984892664924662302907,
    2032768739998524581122296664759089571735179263521009363114079188129174883916,
    2543956343024053601883304672664559614650286398257967534316704482437319824487],
   [1530541947142562750089219917333857094805444006643267052210048677389964447102,
    2175671449313558868157095672252420325624392063860172265546466738232817104891,
    369957040309597117443156424749309368651829224304198098436699933553602541498],
   [13085992739863046435758396657923558184175585362598235458951521100313690188565,
    4726695208567693044603223617921637684284878636653029166386612177675735569689,
    450393225197503060679058635700250248836116980403818016541083261634693773640],
   [4861802632256862298133271572945018464264126593419130453257627239516019552577,
    2022199533602902092702625695403856201509532523674475454748527179165593355149,
    10459073315014153850211155990153901716945821840788313471517150920283497179898],
   [3925148963143604759472314334409450839580780476486833106362777517905787543413,
    3464173052393235015114147419049561250640105143142295295214690847321831295736,
    3469090550890205055808525336873278721019711577060277055069549607354239397009],
   [4261860019004171720453120199086861695879599407649532562725279870742339002657,
    14008098886741578492010855132216050237252291119032223886277210103577699148314,
    435898237105648704400052065761827218489313344903667348846423723125142000451],
   [11715073162248298180349869869650070707892118624222331746182132921654963183012,
    8185062106151714338057645218120686728366622055884894938653175275099880596231,
    13328013982961750894255372002298749693753232032147406388866437512154308887949],
   [3923200053890284305942586540557407237552515492732457943419533456113723548763,
    11442673351803285154717594151936223572404442703914017188604163955915716566111,
    8976221480991702177436122904273488061244434621723921655693211049269573551995],
   [12800451890367945160854310547256544304592111664194637750432015968022552198847,
    9106293988894595212611998052807345304494748242684993446896803870239470379806,
    2551305629934509588431154139989437800866619923603239398869146950746769410031],
   [11295119646143840034576523696471492886685579876550673187676220693756912828512,
    12412330473463282599741845067867733541569947911475863629371862880589644300993,
    11619270384245046018901455869988958086181238257211698030289001218505660357441],
   [11249633320963240508874222392397859215079644215917545871775027841004527010434,
    10711889207558938636549788057912549242807150122479619843700306759735228413815,
    7803596801157629275765041192365701131294588880185980648694409587507969568771],
   [6221986694820499277091619136794532928343082379041937924485492681160885514974,
    5295348018788379168039394424768656151521678381219932966800232102240315412104,
    14364046246396109087880740778959731760537914670661158665938768246541909119221],
   [13586987446115361097830003865910891150158985021411400316956855246132758121517,
    9680160449310243126990906875921024419179289212537933159616587659805218753560,
    8926096874114779357014109910737393263503490123253459436679451600160693271280],
   [11845436939721374132665328559884949155986529706639009403153373809006057446237,
    5970025112049920649636728401540451735417523716030215467430638479820547861202,
    11556496857710081960508079301655461005773332489291670271998813658494207886552],
   [1489007936365252964470009696711084964617230664998233380674740678250447036399,
    11720049870415569473022954941485421798323722211828015514972094154492246825115,
    4984800966858769390674202539041700531251718346204446329656708461081592932143],
   [2374167092750843854076845245831407557165394747643889703163841106098061285779,
    429760499963794534471130389712854792522159336065832162898818626514059602985,
    1052957713396330082310672655931195653181859673306456599379265942595899287769],
   [12262372623338121159380785299571462744499601875478522474240283101058411741807,
    11083226227224775823196117587419199191769151725379903225264820189040513265745,
    6500740773959440305622717487307199018888315892157391033270935126460555665232],
   [2860353366121724200245879463381862902680404812486474834334907475266414671561,
    13248030273823111623744756985649689301947946860555437724194299423000984021379,
    12885848634578217346465633460868865632275250556971153897565223422521029847928],
   [568475765045684786354555326168920526700021941987492866512362476576897980427,
    6753357814198208689029239731026740115636658824113259212426541398070001197097,
    13827484153414877909173304677817059978501932823131201177042524261895793907811],
   [11624319772300326124706940308833493360055456191709578711818548866638742554474,
    6008035343042878462187444796500380641372834810123728370479684263165430255068,
    508985957289588153597455709572581205666205259580988202496754784385037350501],
   [600578641192533696424538889015822304732421670513045450311924046470133343525,
    5281710495362134173659242001984130849749225941742157456764286848097455350889,
    3946664541918003520404233842179016841234698188825951784351059090165440776974],
   [9027698350387752933019253957456801981954384037680698875250053199658854702479,
    5518898806034299959145829575240729081723008854241188752246479585117426902268,
    13793667333596113330459095925959774283719303563622403359515676750900631726904],
   [14067325481846727624305849669986861764061986111465217211343204963379865686483,
    11767737078735185499160405112418666301030464453613924515960631584781955420194,
    5195006521836027645120475429816696847171695584574682858927226223480303485628],
   [13331960063848339705906147327839479970756944295139311917213420517768143258614,
    11386389255717082359969454464838821155750931784162672800806987842923152396421,
    10470165792093946279055607245602412181463988702487554280963741471502266191923],
   [11345266535595373101331596555155633660087591451017537987200504329270813219901,
    7993664472107940638475626642276822343762234160016218445109225057906696518246,
    3731316562144648099559260699380678576689015180634310023962453987156329343961],
   [10969783265414589865903298647201032759986446662981873124474285674802366418595,
    8292942772217643712878870675632883073436840305076909729559596452852440430049,
    7039987094881050407486996972223621241096801960859041995492104631776680422212],
   [5228687740295311096477591711667403867569907132097103370716053820815019829567,
    12760105198964269539375035802061972675704015711579194355383469911258128042284,
    5711410736886926182887703361043114221439493279258292077248617210528548723848],
   [11005531869149636439792341152222642660844960489928597421833494173107037376117,
    8963155598571985677441908841287779311235528074284106939331035898416968431064,
    3214656040752122066374874120855740369246977034211286398843448687944097855949],
   [2052858848446190101748680213827894166185705008068091757681246527899847213676,
    7312940865962054351726210062898969719845224135729775192349766821005404298331,
    10525772374942256225937290382549687506770132713862197210564731598923590837517],
   [10278950458910814771717966491357541649240769760902406536782090198525733361107,
    6501387756674884480154715990210166364479497358105334889034472293736242946774,
    11532839058600455280337046279507907730469822816736536566619919502365453287155],
   [12659267443780219988115658581156584236727416988944496176916079888050978224806,
    11374202120081585046522336587996522954653929590304119501843255674789068074491,
    13788946000945116056469902102693589007172711098697310258406434925640023751894],
   [693202140241984421256137823081678421104203743181532766690867876770508249654,
    11570246352215288360078790353796783802083901120186417426996878141463159172556,
    1742549083003937131681818546255901914948971021415278411220903587736097675237],
   [4171335681867263441001817935126480585799096875898897259348341324973784052835,
    6435088212495642538750188443873824672038404647975316132522650301044936299634,
    1886271982029080753740632359416734776971149947168622700632255709428022141359],
   [13907909496169982010041254763855246431689828089031576982661914986201224651081,
    365541470689095851150210957059972137736900865484253340161709304687880245095,
    873413314290784831064319867993529025428327630622867664882030107100967825847],
   [7567067495085267152648875599423100883901151545064406889027682727108018662355,
    9639187277635629230351557441774366875481122932041719120594555808610905038183,
    1298143984442957705461040734476343930164032030111867669585312181940515883624],
   [1122328507210559149650049223968352413698467111320406102056392696849834955338,
    7517645099815742221605197999606068976879566047916124677220029052889431206457,
    1188316818774272152809100291450073280378298743754631627909345416994667517153],
   [444005441375594077671633652217337557576437139572236044090962239037183185601,
    12649535227544680176615410191610860707475581402297700742783236650948656039022,
    2625532694658627018330710390959341896672074093357240486923959733043758570904],
   [6943405427109186543695920735023593052123829193084941253048677323593432729230,
    3227468143442519159359928834564713158322256819961857105808947411531048333686,
    12102577061096560308065516125121975304286539491697852434561952018693242241632],
   [7961821614851596194907602896335980392010536883641584393665360596091197566281,
    11966595182453395873706530306621253962870321389774303442640369548066484794454,
    442140402227407273169110282059652869846407911220907823127309527878220979688],
   [1667517910232283327134702494336441516656419890135586118382191494532694994872,
    436780978466842493250764099020001148205312245317766002571130039319917137898,
    8452891184058066166352853279723599587385129727977812148359593483809594500167]]

/-- poseidon.rs:33-49 `_CONSTANTS_MATRIX`. -/
def Poseidon.MATRIX : List (List Nat) :=
  [[5862784392132811822399346461209542559968707338020872164521991700364807694530,
    7757408330399788175303535480446337571071489087910607948806353871463965516666,
    8496075446250228238445047861615059028340121959933883608591785836214266608488],
   [2468935952984307777828540490196237105997853101779803225621880934695688047791,
    6447190746270133990447879546053525486084787239389374431230881999686004560382,
    2496707428070521946661419226048740483237118601491693355266478441023446188277],
   [2179966417204926823685133856778517752450232708529571105717441010684845408326,
    10507922981893311351726119744145949418563793888901601023199311329280648882667,
    8943750249843703572493160575072148049724667463496272400706764847123663685181]]

/-- poseidon.rs:52-508 `_CONSTANTS_CONSTANT`. -/
def Poseidon.CONSTANTS : List (List Nat) :=
  [[10187801339791605336251748402605479409606566396373491958667041943798551150211,
    8824452141556477327634835943439996420519135454314677708228322513850226510025,
    5264468709835621148349527988912247104353814123939106227116596276180070073104],
   [13637881690548271929339839559387105015099546141973354320992368464013027112156,
    7027675418691353855077049716619550622043312043660992344940177187528247727783,
    13234561482495297019574434398981523055213551324895011246269352068387930806036],
   [9807824974813203154912550227282760432817675540785796963800377801121529764316,
    7164723634800010345170559916055390119875185097834930139818703833970169645199,
    2720682389492887826569968874051882181427921175723234895884093328329406094669],
   [12755161837895618168300590476484610840922267528627671859325836882165381806691,
    13224952063922250960936823741448973692264041750100990569445192064567307041002,
    5972677482355664808251970179403621537587317604691542457095312708177712905935],
   [13259592869071520474598739447076270973703662109491846304874408686220376925615,
    11805829143136122768520763814474803657178176758865384785225228950060491370520,
    12976649114738535452015180480194409647575485052878282497901508667002411696044],
   [5990567833466552641396252479972748483750532976297674315563264575711713408919,
    9855503016642955244574878257541496154292112711726806671346353659135016209587,
    3518297267402063482291939394705434866313303765090336458957115088213895354374],
   [3959032541349471342136457591475742508377376565034118585023229836334458386499,
    1954876811294862618527744476059844724399371231236154603296457537684819645267,
    4432315946020764014086040302214874341045344921127163160288423920774120084471],
   [3690404384442200903782264995004334807363288367118117498605340707008369192998,
    13645269838164507597212915259972226260090822169419168596362924385886927079836,
    13484299981373196201166722380389594773562113262309564134825386266765751213853],
   [3617032588734556998784828290112344996993359755978384125831280879049491523420,
    13479520726208359005162548206217016449657296677090022213672680654064388575909,
    149101987103211771991327927827692640556911620408176100290586418839323044234],
   [11895436329827531142875612937319609768428626807622623298418286599429610076189,
    2213946951050723319284118699043488343304543214612796775658874763178687874398,
    6411227692207945049588142150610514607178042116321124498744314021784013167807],
   [6830534418395000550371398514530224760386088729335290717464666818519494431137,
    10580519657430965986108162471030486012424647365859891533956693650987126466818,
    4232557491102671303375969264426262870173722026524819099819202041658212759409],
   [11003656447024841860871485341212795824030062119024725564386935271706539897585,
    12013791898101584042954224374878193133248473257022502407565361530611313814829,
    1032400527342368753098340642114835105044001363535341010207460764251901272214],
   [11662409070620397985897630435335326247221838512006448323973260294174043580151,
    462498083559900518334470833812433371588070463145081337823098818653543761968,
    4622082908476410083286670201138165773322781640914243047922441301693321472984],
   [619074932220099567584720641194915509696200347027793052042294963879966262765,
    2635090520059500019661864086615522409798872905401305311748231832709078452746,
    4596755424917813089826497731034412067781857175332385741140491598699058381905],
   [12622420533971517050761060317049369208980632120901481436392835424625664738526,
    12518773493257903476892220377586304475073047132217811687051850178035774765525,
    7150910409873088915567138378833511140267031768668277297762665604766946225946],
   [2507023127157092715378409728900319447911047210331698014507132664783822654175,
    6939655696524592186253894258279685988217778268760320782855939125945184733803,
    10276258614138325071655762251931930877484678837902919206385184121556946750324],
   [7340485916200743279276570085958556798507770452421357119145466906520506506342,
    6012552570023217029001553744799496723352084228510020003935464928215155080191,
    13516039926343867345505349297700416735284302629179495705277891580733185024723],
   [7221669722700687417346373353960536661883467014204005276831020252277657076044,
    1553799760191947885401667523639475410796069334686100176383193333680131543539,
    9981290294385917856729327405448541571580888494635978814465286703665358363584],
   [3939248553588280358043372331356972865168261664512705571501488624762566021823,
    979382242100681784963649758520863053533668631644160532567961063295973792545,
    5478929644476681096437469958231489102974161353940993351588559414552523375472],
   [7573178658386629403632930183877571376596517783760503857587667734606933354565,
    12487978692778091740985983585442456308838452715926267067150762392592481916055,
    11777466616075874658540824660073245663131453917311848438659004818029258226188],
   [3034358982193367965665811038627621289990627562432985174428827650004786426498,
    10881134648147910728333436580006586961539390354622077454384678939652780166293,
    3002662261401574812585941059084045442105770544219592294897623853105950306168],
   [6558187162119512771137219685402504304049569060201201820551473403106771487306,
    4694987398564126756749445490966446527761170564284126078743679070143732109318,
    9812100862165422922235757591915383485338044715409891361026651619010947646011],
   [10802080841949853834350207154609663910756689868701213997346981995894868889056,
    13052524868531695956982628894833001322405070332024054737192806786755696404408,
    331415322883529248089844923742652875393424730212767610334384445296044774377],
   [5553514022377420464238358833288048268497898485931930247370798710915012134806,
    14351409833166478418706180703540879023108609875313349666441156566827698057466,
    8191200994449393414091583810433516255449683673446622353698525941163463918795],
   [4890343266376121472310340792124959893872494279005485968116728765698174529959,
    6183813550940466240069125780194307995419238432953580078105001909257203276029,
    14220530654250029525801935118720825348081122139509940741635298772154340592685],
   [5279094810295095237156880589938713387655737808804323423999071039244700101504,
    4588607160952144132098306988967507597469812225168616305584872049750719212631,
    13472532940316345135184512331951905470210820136203866592192820346341185390128],
   [8236905392675869043587797310050380994360813912790103626000634297770287551953,
    13084044495411804426081493256493193251702812210094831941296663580569190057582,
    9938959468530263238689634115566149670581021441185248861530895506918078896675],
   [11692586721586551523329150170263871124807354999073053791819085788475794564268,
    9358755179172726311342883196642626660155973385865865702703072387015711757634,
    4390315048845376759299934875153957478778619309709587257015580699964208306451],
   [6935839211798937659784055008131602708847374430164859822530563797964932598700,
    7718575645329982002350668393881722835219810598954183825243771613533940160466,
    242195042559342457701875247467475541476692066328222777815539458253844365164],
   [13710970544888392482670345707698469689492766901394672488284507327884683667372,
    7144023895814504370698586937504728260736588610927136323237110389085553036898,
    8557845108834652326975981762589128272026624364693661001203327896381168930462],
   [2514191518588385618668928614438843316582435721381741250684215233501480107391,
    13653844116957219001001661926327517031102957009622534177141534288495806576803,
    6426970556633164973974750225577406832754186830506033652467796257140393718091],
   [3551834385992705076395643110692131686257189926849324538395157161676019274476,
    1219439673853113792340300173186247996249367102884530407862469123523013083971,
    11617028270536375525263487484323797546474290465326614733132539502906133336301],
   [3355402549169350193996102372535400061798109779657451610751899652786954306325,
    7436546675341993215489754835783640726765038435314671201608501060242195220586,
    11047608856641469169830474748676154481406056538978530484831601725107528724215],
   [12042527723601346590657884194893851420490506719701838218722677439006972338267,
    7426530926974171153400957828593153869151416066753580647627979426962467690363,
    2831653363992089802376157134755132365655942185746372114158718620635070241637],
   [12908368178630610710569719268370160806022770178121262243688122486389919287356,
    5289258967375789615351955821350540105879877430939861109685685406944180736525,
    14394265608012127462571567392670117594122990580941141122530627662930560237054],
   [710549042741320328529708787936108376577483681785348705740417476707343713785,
    2345013122330543792101611694850613361685745340402695236354732272023036500152,
    10765375249303706038197004973419243095632341831075144860143874556488156084383],
   [4785623617704249555612091116526556055440278365292840697489968061897354304946,
    10310248934461408645299306991890381824874412097097116172772756260521943896089,
    7615520301750367991880601783964490200518984744907285331066004719383580213174],
   [11188899504408799217967354825394699054734255111797148746588781060130237141725,
    8964575752972179072552638695299372665438832411303136970325653149436229425353,
    8205317767954070547119758263562008446573857859342661271430751481649935512865],
   [3979162104965576489674205101543710946852828408375514816306435515454435517558,
    1386580151907702662587737080832885809078061248190237455048089136290189512992,
    7223391117603518639598440466751080193286510459677016042966533640059408680663],
   [9733191209595633506416643105837735959809004192605121386222818936440930309723,
    486538168871044251085009120658351797400494522648523958245524304862045256691,
    1558415498960552213241704009433360128041672577274390114589014204605400783336],
   [10749063905018409753971835881025233122402531635641702583180695671822925094888,
    2235429387083112376131077598084080165902381064563107852371526892545960851163,
    4909399565810006770507426734458619713110201195951888993667213536745190404064],
   [8380315914250617110582996255563536054771437886456394663929308867370882705498,
    3235435208525080082931898983799117422671035465813798340249129617032839553333,
    1293239921425673430660897025143433077974838969258268884994339615096356996604],
   [3854755057793743998382749043935645076321648392889271506938052408708736403452,
    5352410381163396697819941768893885243535694694324050017399948445792942499242,
    7539009887104016209392520764993500411036167303958290404628573099048438262045],
   [3018926838139220625506489015981329792764782845838536860011466262176793949674,
    39701437664871189523302235943983519533638233765990726458549906036929754998,
    908381723021746593339570185608590229480942094680189369741300881253575736021],
   [3837565647574361068761459036361038720977149057378981325662868867989693614839,
    8520135441108714133581970267103801263368853951819485470074941064511220447680,
    418512623547416088391723876387535911288411841095749808095919869540617448984],
   [5410684378713263186548337983252960352059120561867029137014627845977008289113,
    7607552010319772281480482056612765407544042522430448794355897093565701263964,
    10560443382562847032903810186773383790191172686921488835536541463612896702880],
   [11765584987740430767767720963618789471599706414952870467586329869086306061021,
    1762188042455633427137702520675816545396284185254002959309669405982213803405,
    9423367831245402395870732521319058488718383679437757865233865664334989167725],
   [13086156091926073523380666471499510015278998772411048213539821848413088237741,
    11924752273555035815636533686531247827454765648368278679921751482516049180726,
    13550749835147637257149132251444227574025357160870832060440277657499614035279],
   [4980022470210542427146263474888300588899900028640632977248755689173201481217,
    12194624998206270864758583600243377897592014816955399868337294924074362051319,
    11646101890917244289289052796357017247643510930320947559911433916880381982804],
   [6341903156998053585406994485489167044975338988123396132600439007691254515333,
    7075683053762049425384470507173220516666842086565372831191898736225176833969,
    12339183742952719597367108525158230576242909340192236085203045953436828588126],
   [6544806624931636820046250739287622854861165137157363228477412109592073724449,
    4162471908441602722111530391301479454101487411256108519749268293323246853465,
    3855904019349977168075627829106833431554741216264895289124424891683702161142],
   [8081573990172653638630613451663558255120309113082158296697543180884327681628,
    3770424843537837666617449317328375453122197222151870507160190432180205488340,
    8536337612042884865823862990558395500695879186323517844891061024641778919517],
   [4105549711316030661060813474557643059544637207881308235218224851109489369717,
    11960391615090990567079593095976721248830913673918120417192162585315739995752,
    5076891494202411776760085639089021661480026202575079200283033859925084439937],
   [11705756475621142531993264933474842610756470013576597133965107051639837169224,
    13741351539856929954498559924093474280259681098675282580187195151741900723408,
    3027068551635371872953244299065560957541615113815101131189242325515764690059],
   [6850395512313577247119081673505024908539779699924358158552830822936565896447,
    8956086407974197848637272350322833148022602624785508354504602767996995213788,
    4790756545207195080071720581233345623221139929363317122620010244898674217389],
   [12474740635631417608441859464962458799096036866556081881104510975404284630237,
    3495680684841851669468757117759016721413638849971831476780828860386585919539,
    12431669881911492027539297308953445608587717189954390030034316352358291519173],
   [13473834488972645181364798464677331389370696501289626421839474973708165241187,
    9933250710090698648174917102640713736046106810967755531614818701588711061097,
    930116505665108940369083060127664353583958633476308834849463062893603682173],
   [10023394751834506039535835528272848629669745400150361401320009377839386028739,
    12410769212424127078176119620628096413678537209892760449888079715681785797774,
    2306241912153324117514359373155364671004781238206203396999313236825587184646],
   [411529621724849932999694270803131456243889635467661223241617477462914950626,
    5160998273928415655409823184165899261172990046635763813454147746797659213144,
    1853045663799038840844200357682503563381388364149441145393842890943063622009],
   [10200060836829532894345177157281490350920059757696303970795575868782116430734,
    13159315236348307522247320338327508202880603217101108650889411139889606648708,
    2622104986201989114405870237409757584394794894639900992163117703774646183847],
   [2369987021925264551825102643978956756043624271037372491079262595486612463322,
    11140578593710414034189608336908498732337134094057879227642847613096007368196,
    13889595442177754598892537082881169375497819074782697987852973860359070672134],
   [7706101431683962170748864558736885249954217740028914732545058932435994148261,
    11215510342262777937959939344707490346990461846904065605590679911793128840184,
    14294217693107412351976801487758792515428461120505474004428341094115350941322],
   [3682076693466701182062369703177588775177371633140590131412886124703375592908,
    10707887432375252298829520257221060883356326036211033062627152466974818597932,
    11580067677506341502050232902287564308838930592614842856355490762938012110636],
   [880409284677516737794143810282269435436869995982921576549643697413399016444,
    3625379044328604445017671283561246502850747224428989276925240574779942190412,
    6320419233799899729388582856796221910956884405787773104057405729484356532577],
   [4043654907824840162873903984931870111203178649649374787881862315748593586768,
    8712558575591178627646966119091406463745130465063969822358568006142648159678,
    13269280814120791689018246203293707484207916170171977484087989933376123238705],
   [4010663644488387734216662043340398912659727136190100684683631872086884884645,
    4693539785169921996706165279011548411035394830718653170630243145378817566954,
    13031947796327095660032190165297431412498254986709428126509365542186537851579],
   [12269374342586015465639366064459209823001331182668431980583649610423241536108,
    3623382072093621360324914837010787702508074046403474695113195496868820798538,
    7011086086203502624189793473666763685083840151819662912121223918053643149084],
   [3600854486849487646325182927019642276644093512133907046667282144129939150983,
    10016930241493632301662250420286427076491301648089728077714543388754509196254,
    9959705538235431370181375503186495072171574307837686840111188119237864917974],
   [8056115392381488214428218511662956255680546327579309477742441707294811958147,
    10283126821075028181460781612903066863291766350114310674479581227447410732243,
    4957522379469185879702699424410843035763313862013657992989940540715156607731],
   [1933279639657503578406587541357405767411466154336088493966526042743598550902,
    2138221547112520744699126051903811860205771600821672121643894708182292213541,
    6313216304209770501412298144859507290401436592549950229914651662192978201247],
   [6090236991596262327408212909912734539091116579772880897737743653575530314797,
    11360412127110486398703016067500520173072536018325425874496685808315346054976,
    1943979703748280603904302007539344051753490568587165142053590069794471693776],
   [684525210957570259428528496229380295065177651980233161490279976442309650151,
    5324088189464912481605464120209592098785379451464127333628354276113620513718,
    11047937883714415909395931045871994706853023180590852570362209260425388138594],
   [8823499279575388961439813238720128083545335887121293188311250199635211112699,
    4304575461989675868955670189922380041751133011838287171575479163119733371316,
    3464340397998075738891129996710075228740496767934137465519455338004332839215],
   [10042254753949331598794714340591995019262491069888076724903102165423762006840,
    11523254830249362162256695767976697970209055038019950577575113071151802550969,
    4750030501571238574491864210100555679943581925567756526572147831645633743960],
   [5527472274416140542876086516990990026889498758922924182449582352244404392867,
    11880765442983944777971810121968391924028673917382470997783686313133182301624,
    13008683657916762434211784957458271334210610135613196749049319280362858603121],
   [14265766115735107087700873862467899732048437698642616056856966810738489164556,
    7061471895553716731806082882582404033880670163489323371664740269303775634134,
    10266959477567992691146166778363477650605633676210357810906146168244851416171],
   [85453456084779255583418488188332773800106455407946671095565972122774025681,
    13586138032575650708060089181624820411154599967512935508933076151074150939058,
    7415248027993333511520563052816831805939690496204187783003638700824726112592],
   [13700097588513101583540301466051375374790979680481208874455054275721973191486,
    14403384635217532475644232997372226567362383258822841612696232430924751371845,
    13380513772761377852799171494070693225201198151001629317094611002147573888293],
   [6714899802221342233773129092725128944867322380063456869835704189892456118069,
    4192926855785330265753003361744539845529523638058765674746715426508583520700,
    5332533484721198492046480129162789413486614526040752390137638282586451567579],
   [13195403638201087586578991508241490917987974388312014213355438009537607126430,
    7181004107638025245090674254447237694978778080067359162508771528174311384279,
    10924577724685591604709130096892203753353289638684278359027200547953287255192],
   [6233005527035139687546287534625755859339280309084303675451600654904917298285,
    11510755715761414256334967213097949648733086224434822603743581608153979218710,
    9542241249859856258519642815684180780054580641338599237310424478170080842855],
   [8163421647630015580899179925228123364763687136253007407138938462861499930351,
    11722032101634233887635485313522723603968981327474018550710347763840833882903,
    5902836857132812261990490241931380400366746014787185691388456551559999954417],
   [1812588309302474655043003948507433822433877959260873852114924630684888512493,
    6455402597285144442503269136658832983246145947877331738383601829541718735231,
    2989087789022863982526929708593697535256551246269995561487566048169476049252],
   [7305061861736451152905029706768892625091314786135577103192983811561528671691,
    505425339250886013076703361573958920728066749905657099019241672294475109370,
    12974471912854936826923156822577958087199529911183841151828105075678317871873],
   [5872375384986099556601119032006413036325371640197059253395573291196865622648,
    1625090409149940966858454986530771387891625531896119715417165751264077286965,
    179139838844450210592009918163124641421696118987114592666298100451353799953],
   [5185569806813866855768453225999163395653539737589408493513382157527082430822,
    2737301854006864489062598733337068689102680351550005405227304969786257236071,
    13858246582459296231477239162079841391631572818321891290563442036091880378914],
   [374029488099466837453096950537275565120689146401077127482884887409712315162,
    4591906045183610408372262877631309811086136042962623471417232217787699037059,
    9928973034370434181323659075000155365618775060836009039518331244169306146072],
   [10752912372242641369003551421233246649173901396582967842424958999195071410529,
    148057579455448384062325089530558091463206199724854022070244924642222283388,
    1541588700238272333689786749850391910886043454136337982301853802587780729085],
   [3765516654545142020364147757569169786158936863983138005493898891678512494507,
    6248781177970865726065396241301623485300380191920728981443436356834033312824,
    12214557036758035356143663727638374031583047580017985361109749409359257607793],
   [2438984569205811206440916967282943047351690380913568868762849415443630295406,
    9374797833173787558417859982491200734353352114511517126678170643864702861343,
    2262318076430738829137218755165945363642315922559670529358901778390743783970],
   [6411206507247214244488519798493505274870442254394271615004329570020415217037,
    13149682081791685323229616620075094818031375602196053456362175086227965286321,
    13625519590726389313330826648331135196773683203806269224524730504117898644586]]

end Zkp
