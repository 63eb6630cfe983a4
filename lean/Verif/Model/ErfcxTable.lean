import Mathlib.Data.Real.Archimedean
import Mathlib.Algebra.Order.Floor.Semiring

/-!
Model of `erfcx_y100` of fake_spectra/Faddeeva.cpp:1012-1419: piecewise polynomials for the scaled complementary error
function.

`double` is an exact real number.
-/

namespace Verif.Model.Faddeeva

/-- The coefficients of the 100 cases, Faddeeva.cpp:1015-1414, from the constant term on. A pair `(m, e)` is `m` divided
by `10^e`: the literal `0.70878032454106438663e-3` is `(70878032454106438663, 23)`. -/
def erfcxTab : List (List (ℕ × ℕ)) :=
  [
    [(70878032454106438663, 23), (71234091047026302958, 23), (35779077297597742384, 25), (17403143962587937815, 27), (81710660047307788845, 30), (36885022360434957634, 32), (15917038551111111111, 34)],
    [(21479143208285144230, 22), (72686402367379996033, 23), (36843175430938995552, 25), (18071841272149201685, 27), (85496449296040325555, 30), (38852037518534291510, 32), (16868473576888888889, 34)],
    [(36165255935630175090, 22), (74182092323555510862, 23), (37948319957528242260, 25), (18771627021793087350, 27), (89484715122415089123, 30), (40935858517772440862, 32), (17872061464888888889, 34)],
    [(51154983860031979264, 22), (75722840734791660540, 23), (39096425726735703941, 25), (19504168704300468210, 27), (93687503063178993915, 30), (43143925959079664747, 32), (18939926435555555556, 34)],
    [(66457513172673049824, 22), (77310406054447454920, 23), (40289510589399439385, 25), (20271233238288381092, 27), (98117631321709100264, 30), (45484207406017752971, 32), (20076352213333333333, 34)],
    [(82082389970241207883, 22), (78946629611881710721, 23), (41529701552622656574, 25), (21074693344544655714, 27), (10278874108587317989, 29), (47965201390613339638, 32), (21285907413333333333, 34)],
    [(98039537275352193165, 22), (80633440108342840956, 23), (42819241329736982942, 25), (21916534346907168612, 27), (10771535136565470914, 29), (50595972623692822410, 32), (22573462684444444444, 34)],
    [(11433927298290302370, 21), (82372858383196561209, 23), (44160495311765438816, 25), (22798861426211986056, 27), (11291291745879239736, 29), (53386189365816880454, 32), (23944209546666666667, 34)],
    [(13099232878814653979, 21), (84167002467906968214, 23), (45555958988457506002, 25), (23723907357214175198, 27), (11839789326602695603, 29), (56346163067550237877, 32), (25403679644444444444, 34)],
    [(14800987015587535621, 21), (86018092946345943214, 23), (47008265848816866105, 25), (24694040760197315333, 27), (12418779768752299093, 29), (59486890370320261949, 32), (26957764568888888889, 34)],
    [(16540351739394069380, 21), (87928458641241463952, 23), (48520195793001753903, 25), (25711774900881709176, 27), (13030128534230822419, 29), (62820097586874779402, 32), (28612737351111111111, 34)],
    [(18318536789842392647, 21), (89900542647891721692, 23), (50094684089553365810, 25), (26779777074218070482, 27), (13675822186304615566, 29), (66358287745352705725, 32), (30375273884444444444, 34)],
    [(20136801964214276775, 21), (91936908737673676012, 23), (51734830914104276820, 25), (27900878609710432673, 27), (14357976402809042257, 29), (70114790311043728387, 32), (32252476000000000000, 34)],
    [(21996459598282740954, 21), (94040248155366777784, 23), (53443911508041164739, 25), (29078085538049374673, 27), (15078844500329731137, 29), (74103813647499204269, 32), (34251892320000000000, 34)],
    [(23898877187226319502, 21), (96213386835900177540, 23), (55225386998049012752, 25), (30314589961047687059, 27), (15840826497296335264, 29), (78340500472414454395, 32), (36381553564444444445, 34)],
    [(25845480155298518485, 21), (98459293067820123389, 23), (57082915920051843672, 25), (31613782169164830118, 27), (16646478745529630813, 29), (82840985928785407942, 32), (38649975768888888890, 34)],
    [(27837754783474696598, 21), (10078108563256892757, 22), (59020366493792212221, 25), (32979263553246520417, 27), (17498524159268458073, 29), (87622459124842525110, 32), (41066206488888888890, 34)],
    [(29877251304899307550, 21), (10318204245057349310, 22), (61041829697162055093, 25), (34414860359542720579, 27), (18399863072934089607, 29), (92703227366365046533, 32), (43639844053333333334, 34)],
    [(31965587178596443475, 21), (10566560976716574401, 22), (63151633192414586770, 25), (35924638339521924242, 27), (19353584758781174038, 29), (98102783859889264382, 32), (46381060817777777779, 34)],
    [(34104450552588334840, 21), (10823541191350532574, 22), (65354356159553934436, 25), (37512918348533521149, 27), (20362979635817883229, 29), (10384187833037282363, 31), (49300625262222222221, 34)],
    [(36295603928292425716, 21), (11089526167995268200, 22), (67654845095518363577, 25), (39184292949913591646, 27), (21431552202133775150, 29), (10994259106646731797, 31), (52409949102222222221, 34)],
    [(38540888038840509795, 21), (11364917134175420009, 22), (70058230641246312003, 25), (40943644083718586939, 27), (22563034723692881631, 29), (11642841011361992885, 31), (55721092871111111110, 34)],
    [(40842225954785960651, 21), (11650136437945673891, 22), (72569945502343006619, 25), (42796161861855042273, 27), (23761401711005024162, 29), (12332431172381557035, 31), (59246802364444444445, 34)],
    [(43201627431540222422, 21), (11945628793917272199, 22), (75195743532849206263, 25), (44747364553960993492, 27), (25030885216472953674, 29), (13065684400300476484, 31), (63000532853333333334, 34)],
    [(45621193513810471438, 21), (12251862608067529503, 22), (77941720055551920319, 25), (46803119830954460212, 27), (26375990983978426273, 29), (13845421370977119765, 31), (66996477404444444445, 34)],
    [(48103121413299865517, 21), (12569331386432195113, 22), (80814333496367673980, 25), (48969667335682018324, 27), (27801515481905748484, 29), (14674637611609884208, 31), (71249589351111111110, 34)],
    [(50649709676983338501, 21), (12898555233099055810, 22), (83820428414568799654, 25), (51253642652551838659, 27), (29312563849675507232, 29), (15556512782814827846, 31), (75775607822222222221, 34)],
    [(53263363664388864181, 21), (13240082443256975769, 22), (86967260015007658418, 25), (53662102750396795566, 27), (30914568786634796807, 29), (16494420240828493176, 31), (80591079644444444445, 34)],
    [(55946601353500013794, 21), (13594491197408190706, 22), (90262520233016380987, 25), (56202552975056695376, 27), (32613310410503135996, 29), (17491936862246367398, 31), (85713381688888888890, 34)],
    [(58702059496154081813, 21), (13962391363223647892, 22), (93714365487312784270, 25), (58882975670265286526, 27), (34414937110591753387, 29), (18552853109751857859, 31), (91160736711111111110, 34)],
    [(61532500145144778048, 21), (14344426411912015247, 22), (97331446201016809696, 25), (61711860507347175097, 27), (36325987418295300221, 29), (19681183310134518232, 31), (96952238400000000000, 34)],
    [(64440817576653297993, 21), (14741275456383131151, 22), (10112293819576437838, 24), (64698236605933246196, 27), (38353412915303665586, 29), (20881176114385120186, 31), (10310784480000000000, 33)],
    [(67430045633130393282, 21), (15153655418916540370, 22), (10509857606888328667, 24), (67851706529363332855, 27), (40504602194811140006, 29), (22157325110542534469, 31), (10964842115555555556, 33)],
    [(70503365513338850709, 21), (15582323336495709827, 22), (10926868866865231089, 24), (71182482239613507542, 27), (42787405890153386710, 29), (23514379522274416437, 31), (11659571751111111111, 33)],
    [(73664114037944596353, 21), (16028078812438820413, 22), (11364423678778207991, 24), (74701423097423182009, 27), (45210162777476488324, 29), (24957355004088569134, 31), (12397238257777777778, 33)],
    [(76915792420819562379, 21), (16491766623447889354, 22), (11823685320041302169, 24), (78420075993781544386, 27), (47781726956916478925, 29), (26491544403815724749, 31), (13180196462222222222, 33)],
    [(80262075578094612819, 21), (16974279491709504117, 22), (12305888517309891674, 24), (82350717698979042290, 27), (50511496109857113929, 29), (28122528497626897696, 31), (14010889635555555556, 33)],
    [(83706822008980357446, 21), (17476561032212656962, 22), (12812343958540763368, 24), (86506399515036435592, 27), (53409440823869467453, 29), (29856186620887555043, 31), (14891851591111111111, 33)],
    [(87254084284461718231, 21), (17999608886001962327, 22), (13344443080089492218, 24), (90900994316429008631, 27), (56486134972616465316, 29), (31698707080033956934, 31), (15825697795555555556, 33)],
    [(90908120182172748487, 21), (18544478050657699758, 22), (13903663143426120077, 24), (95549246062549906177, 27), (59752787125242054315, 29), (33656597366099099413, 31), (16815130613333333333, 33)],
    [(94673404508075481121, 21), (19112284419887303347, 22), (14491572616545004930, 24), (10046682186333613697, 26), (63221272959791000515, 29), (35736693975589130818, 31), (17862931591111111111, 33)],
    [(98554641648004456555, 21), (19704208544725622126, 22), (15109836875625443935, 24), (10567036667675984067, 26), (66904168640019354565, 29), (37946171850824333014, 31), (18971959040000000000, 33)],
    [(10255677889470089531, 20), (20321499629472857418, 22), (15760224242962179564, 24), (11117756071353507391, 26), (70814785110097658502, 29), (40292553276632563925, 31), (20145143075555555556, 33)],
    [(10668502059865093318, 20), (20965479776148731610, 22), (16444612377624983565, 24), (11700717962026152749, 26), (74967203250938418991, 29), (42783716186085922176, 31), (21385479360000000000, 33)],
    [(11094484319386444474, 20), (21637548491908170841, 22), (17164995035719657111, 24), (12317915750735938089, 26), (79376309831499633734, 29), (45427901763106353914, 31), (22696025653333333333, 33)],
    [(11534201115268804714, 20), (22339187474546420375, 22), (17923489217504226813, 24), (12971465288245997681, 26), (84057834180389073587, 29), (48233721206418027227, 31), (24079890062222222222, 33)],
    [(11988259392684094740, 20), (23071965691918689601, 22), (18722342718958935446, 24), (13663611754337957520, 26), (89028385488493287005, 29), (51210161569225846701, 31), (25540227111111111111, 33)],
    [(12457298393509812907, 20), (23837544771809575380, 22), (19563942105711612475, 24), (14396736847739470782, 26), (94305490646459247016, 29), (54366590583134218096, 31), (27080225920000000000, 33)],
    [(12941991566142438816, 20), (24637684719508859484, 22), (20450821127475879816, 24), (15173366280523906622, 26), (99907632506389027739, 29), (57712760311351625221, 31), (28703099555555555556, 33)],
    [(13443048593088696613, 20), (25474249981080823877, 22), (21385669591362915223, 24), (15996177579900443030, 26), (10585428844575134013, 28), (61258809536787882989, 31), (30412080142222222222, 33)],
    [(13961217543434561353, 20), (26349215871051761416, 22), (22371342712572567744, 24), (16868008199296822247, 26), (11216596910444996246, 28), (65015264753090890662, 31), (32210394506666666666, 33)],
    [(14497287157673800690, 20), (27264675383982439814, 22), (23410870961050950197, 24), (17791863939526376477, 26), (11886425714330958106, 28), (68993039665054288034, 31), (34101266222222222221, 33)],
    [(15052089272774618151, 20), (28222846410136238008, 22), (24507470422713397006, 24), (18770927679626136909, 26), (12597184587583370712, 28), (73203433049229821618, 31), (36087889048888888890, 33)],
    [(15626501395774612325, 20), (29226079376196624949, 22), (25664553693768450545, 24), (19808568415654461964, 26), (13351257759815557897, 28), (77658124891046760667, 31), (38173420035555555555, 33)],
    [(16221449434620737567, 20), (30276865332726475672, 22), (26885741326534564336, 24), (20908350604346384143, 26), (14151148144240728728, 28), (82369170665974313027, 31), (40360957457777777779, 33)],
    [(16837910595412130659, 20), (31377844510793082301, 22), (28174873844911175026, 24), (22074043807045782387, 26), (14999481055996090039, 28), (87348993661930809254, 31), (42653528977777777779, 33)],
    [(17476916455659369953, 20), (32531815370903068316, 22), (29536024347344364074, 24), (23309632627767074202, 26), (15899007843582444846, 28), (92610375235427359475, 31), (45054073102222222221, 33)],
    [(18139556223643701364, 20), (33741744168096996041, 22), (30973511714709500836, 24), (24619326937592290996, 26), (16852609412267750744, 28), (98166442942854895573, 31), (47565418097777777779, 33)],
    [(18826980194443664549, 20), (35010775057740317997, 22), (32491914440014267480, 24), (26007572375886319028, 26), (17863299617388376116, 28), (10403065638343878679, 30), (50190265831111111110, 33)],
    [(19540403413693967350, 20), (36342240767211326315, 22), (34096085096200907289, 24), (27479061117017637474, 26), (18934228504790032826, 28), (11021679075323598664, 30), (52931171733333333334, 33)],
    [(20281109560651886959, 20), (37739673859323597060, 22), (35791165457592409054, 24), (29038742889416172404, 26), (20068685374849001770, 28), (11673891799578381999, 30), (55790523093333333334, 33)],
    [(21050455062669334978, 20), (39206818613925652425, 22), (37582602289680101704, 24), (30691836231886877385, 26), (21270101645763677824, 28), (12361138551062899455, 30), (58770520160000000000, 33)],
    [(21849873453703332479, 20), (40747643554689586041, 22), (39476163820986711501, 24), (32443839970139918836, 26), (22542053491518680200, 28), (13084879235290858490, 30), (61873153262222222221, 33)],
    [(22680879990043229327, 20), (42366354648628516935, 22), (41477956909656896779, 24), (34300544894502810002, 26), (23888264229264067658, 28), (13846596292818514601, 30), (65100183751111111110, 33)],
    [(23545076536988703937, 20), (44067409206365170888, 22), (43594444916224700881, 24), (36268045617760415178, 26), (25312606430853202748, 28), (14647791812837903061, 30), (68453122631111111110, 33)],
    [(24444156740777432838, 20), (45855530511605787178, 22), (45832466292683085475, 24), (38352752590033030472, 26), (26819103733055603460, 28), (15489984390884756993, 30), (71933206364444444445, 33)],
    [(25379911500634264643, 20), (47735723208650032167, 22), (48199253896534185372, 24), (40561404245564732314, 26), (28411932320871165585, 28), (16374705736458320149, 30), (75541379822222222221, 33)],
    [(26354234756393613032, 20), (49713289477083781266, 22), (50702455036930367504, 24), (42901079254268185722, 26), (30095422058900481753, 28), (17303497025347342498, 30), (79278273368888888890, 33)],
    [(27369129607732343398, 20), (51793846023052643767, 22), (53350152258326602629, 24), (45379208848865015485, 26), (31874057245814381257, 28), (18277905010245111046, 30), (83144182364444444445, 33)],
    [(28426714781640316172, 20), (53983341916695141966, 22), (56150884865255810638, 24), (48003589196494734238, 26), (33752476967570796349, 28), (19299477888083469086, 30), (87139049137777777779, 33)],
    [(29529231465348519920, 20), (56288077305420795663, 22), (59113671189913307427, 24), (50782393781744840482, 26), (35735475025851713168, 28), (20369760937017070382, 30), (91262442613333333334, 33)],
    [(30679050522528838613, 20), (58714723032745403331, 22), (62248031602197686791, 24), (53724185766200945789, 26), (37827999418960232678, 28), (21490291930444538307, 30), (95513539182222222221, 33)],
    [(31878680111173319425, 20), (61270341192339103514, 22), (65564012259707640976, 24), (56837930287837738996, 26), (40035151353392378882, 28), (22662596341239294792, 30), (99891109760000000000, 33)],
    [(33130773722152622027, 20), (63962406646798080903, 22), (69072209592942396666, 24), (60133006661885941812, 26), (42362183765883466691, 28), (23888182347073698382, 30), (10439349811555555556, 32)],
    [(34438138658041336523, 20), (66798829540414007258, 22), (72783795518603561144, 24), (63619220443228800680, 26), (44814499336514453364, 28), (25168535651285475274, 30), (10901861383111111111, 32)],
    [(35803744972380175583, 20), (69787978834882685031, 22), (76710543371454822497, 24), (67306815308917386747, 26), (47397647975845228205, 28), (26505114141143050509, 30), (11376390933333333333, 32)],
    [(37230734890119724188, 20), (72938706896461381003, 22), (80864854542670714092, 24), (71206484718062688779, 26), (50117323769745883805, 28), (27899342394100074165, 30), (11862637614222222222, 32)],
    [(38722432730555448223, 20), (76260375162549802745, 22), (85259785810004603848, 24), (75329383305171327677, 26), (52979361368388119355, 28), (29352606054164086709, 30), (12360253370666666667, 32)],
    [(40282355354616940667, 20), (79762880915029728079, 22), (89909077342438246452, 24), (79687137961956194579, 26), (55989731807360403195, 28), (30866246101464869050, 30), (12868841946666666667, 32)],
    [(41914223158913787649, 20), (83456685186950463538, 22), (94827181359250161335, 24), (84291858561783141014, 26), (59154537751083485684, 28), (32441553034347469291, 30), (13387957943111111111, 32)],
    [(43621971639463786896, 20), (87352841828289495773, 22), (10002929142066799966, 23), (89156148280219880024, 26), (62480008150788597147, 28), (34079760983458878910, 30), (13917107176888888889, 32)],
    [(45409763548534330981, 20), (91463027755548240654, 22), (10553137232446167258, 23), (94293113464638623798, 26), (65972492312219959885, 28), (35782041795476563662, 30), (14455745872000000000, 32)],
    [(47282001668512331468, 20), (95799574408860463394, 22), (11135019058000067469, 23), (99716373005509038080, 26), (69638453369956970347, 28), (37549499088161345850, 30), (15003280712888888889, 32)],
    [(49243342227179841649, 20), (10037550043909497071, 21), (11750334542845234952, 23), (10544006716188967172, 25), (73484461168242224872, 28), (39383162326435752965, 30), (15559069118222222222, 32)],
    [(51298708979209258326, 20), (10520454564612427224, 21), (12400930037494996655, 23), (11147886579371265246, 25), (77517184550568711454, 28), (41283980931872622611, 30), (16122419680000000000, 32)],
    [(53453307979101369843, 20), (11030120618800726938, 21), (13088741519572269581, 23), (11784797595374515432, 25), (81743383063044825400, 28), (43252818449517081051, 30), (16692592640000000000, 32)],
    [(55712643071169299478, 20), (11568077107929735233, 21), (13815797838036651289, 23), (12456314879260904558, 25), (86169898078969313597, 28), (45290446811539652525, 30), (17268801084444444444, 32)],
    [(58082532122519320968, 20), (12135935999503877077, 21), (14584223996665838559, 23), (13164068573095710742, 25), (90803643355106020163, 28), (47397540713124619155, 30), (17850211608888888889, 32)],
    [(60569124025293375554, 20), (12735396239525550361, 21), (15396244472258863344, 23), (13909744385382818253, 25), (95651595032306228245, 28), (49574672127669041550, 30), (18435945564444444444, 32)],
    [(63178916494715716894, 20), (13368247798287030927, 21), (16254186562762076141, 23), (14695084048334056083, 25), (10072078109604152350, 27), (51822304995680707483, 30), (19025081422222222222, 32)],
    [(65918774689725319200, 20), (14036375850601992063, 21), (17160483760259706354, 23), (15521885688723188371, 25), (10601827031535280590, 27), (54140790105837520499, 30), (19616655146666666667, 32)],
    [(68795950683174433822, 20), (14741765091365869084, 21), (18117679143520433835, 23), (16392004108230585213, 25), (11155116068018043001, 27), (56530360194925690374, 30), (20209663662222222222, 32)],
    [(71818103808729967036, 20), (15486504187117112279, 21), (19128428784550923217, 23), (17307350969359975848, 25), (11732656736113607751, 27), (58991125287563833603, 30), (20803065333333333333, 32)],
    [(74993321911726254661, 20), (16272790364044783382, 21), (20195505163377912645, 23), (18269894883203346953, 25), (12335161021630225535, 27), (61523068312169087227, 30), (21395783431111111111, 32)],
    [(78330143531283492729, 20), (17102934132652429240, 21), (21321800585063327041, 23), (19281661395543913713, 25), (12963340087354341574, 27), (64126040998066348872, 30), (21986708942222222222, 32)],
    [(81837581041023811832, 20), (17979364149044223802, 21), (22510330592753129006, 23), (20344732868018175389, 25), (13617902941839949718, 27), (66799760083972474642, 30), (22574701262222222222, 32)],
    [(85525144775685126237, 20), (18904632212547561026, 21), (23764237370371255638, 23), (21461248251306387979, 25), (14299555071870523786, 27), (69543803864694171934, 30), (23158593688888888889, 32)],
    [(89402868170849933734, 20), (19881418399127202569, 21), (25086793128395995798, 23), (22633402747585233180, 25), (15008997042116532283, 27), (72357609075043941261, 30), (23737194737777777778, 32)],
    [(93481333942870796363, 20), (20912536329780368893, 21), (26481403465998477969, 23), (23863447359754921676, 25), (15746923065472184451, 27), (75240468141720143653, 30), (24309291271111111111, 32)],
    [(97771701335885035464, 20), (22000938572830479551, 21), (27951610702682383001, 23), (25153688325245314530, 25), (16514019547822821453, 27), (78191526829368231251, 30), (24873652355555555556, 32)]]

/-- A decimal literal. -/
noncomputable def lit (c : ℕ × ℕ) : ℝ := (c.1 : ℝ) / 10 ^ c.2

/-- `c0 + (c1 + (c2 + …) * t) * t`, the expression of every case. -/
noncomputable def horner (t : ℝ) : List (ℕ × ℕ) → ℝ
  | [] => 0
  | [c] => lit c
  | c :: cs => lit c + horner t cs * t

/-- The conversion `(int) y100` to an integer, Faddeeva.cpp:1014. -/
noncomputable def toInt (x : ℝ) : ℤ := if 0 ≤ x then ⌊x⌋ else ⌈x⌉

/-- `erfcx_y100`, Faddeeva.cpp:1012-1419: the case `k` has `t = 2*y100 - (2k+1)`, and there is a value 1 when there is no
case. -/
noncomputable def erfcx_y100 (y100 : ℝ) : ℝ :=
  match toInt y100 with
  | .ofNat k =>
    match erfcxTab[k]? with
    | some row => horner (2 * y100 - (2 * k + 1)) row
    | none => 1
  | .negSucc _ => 1

end Verif.Model.Faddeeva
