import Verif.Model.Tables
/-! Generated by tools/gen_tables.py from
  nisaba/scripts/abjad_alphabet/data/Arab/nfc.textproto
  nisaba/scripts/abjad_alphabet/data/Arab/presentation_forms.textproto
  nisaba/scripts/abjad_alphabet/data/Arab/reversible_roman.textproto
  nisaba/scripts/abjad_alphabet/data/Arab/uname_prefix.textproto
  nisaba/scripts/abjad_alphabet/data/Arab/visual_norm.textproto
-/
namespace Nisaba.Data

def arabNfc : List (Str × Str) := [([nat_lit 1575, nat_lit 1619], [nat_lit 1570]),
    ([nat_lit 1570, nat_lit 1621], [nat_lit 1573, nat_lit 1619]),
    ([nat_lit 1575, nat_lit 1648, nat_lit 1619], [nat_lit 1570, nat_lit 1648]),
    ([nat_lit 1575, nat_lit 1620], [nat_lit 1571]),
    ([nat_lit 1575, nat_lit 1621], [nat_lit 1573]),
    ([nat_lit 1608, nat_lit 1620], [nat_lit 1572]),
    ([nat_lit 1729, nat_lit 1620], [nat_lit 1730]),
    ([nat_lit 1746, nat_lit 1620], [nat_lit 1747]),
    ([nat_lit 1617, nat_lit 1614], [nat_lit 1614, nat_lit 1617]),
    ([nat_lit 1617, nat_lit 1611], [nat_lit 1611, nat_lit 1617]),
    ([nat_lit 1617, nat_lit 1616], [nat_lit 1616, nat_lit 1617]),
    ([nat_lit 1617, nat_lit 1613], [nat_lit 1613, nat_lit 1617]),
    ([nat_lit 1617, nat_lit 1615], [nat_lit 1615, nat_lit 1617]),
    ([nat_lit 1617, nat_lit 1612], [nat_lit 1612, nat_lit 1617]),
    ([nat_lit 1616, nat_lit 1613], [nat_lit 1613, nat_lit 1616]),
    ([nat_lit 1615, nat_lit 1612], [nat_lit 1612, nat_lit 1615]),
    ([nat_lit 1615, nat_lit 1614], [nat_lit 1614, nat_lit 1615]),
    ([nat_lit 1615, nat_lit 1611], [nat_lit 1611, nat_lit 1615]),
    ([nat_lit 1614, nat_lit 1611], [nat_lit 1611, nat_lit 1614]),
    ([nat_lit 1614, nat_lit 1613], [nat_lit 1613, nat_lit 1614]),
    ([nat_lit 1616, nat_lit 1611], [nat_lit 1611, nat_lit 1616]),
    ([nat_lit 1613, nat_lit 1611], [nat_lit 1611, nat_lit 1613]),
    ([nat_lit 1616, nat_lit 1614], [nat_lit 1614, nat_lit 1616]),
    ([nat_lit 1618, nat_lit 1617], [nat_lit 1617, nat_lit 1618]),
    ([nat_lit 1618, nat_lit 1616], [nat_lit 1616, nat_lit 1618]),
    ([nat_lit 1761, nat_lit 1615], [nat_lit 1615, nat_lit 1761]),
    ([nat_lit 1557, nat_lit 1616], [nat_lit 1616, nat_lit 1557])]

def arabVisualNorm : List (Str × Str) := [([nat_lit 8203], []),
    ([nat_lit 8205], []),
    ([nat_lit 1608, nat_lit 1615], [nat_lit 1735]),
    ([nat_lit 1608, nat_lit 1561], [nat_lit 1735])]

def arabPresentationForms : List (Str × Str) := [([nat_lit 64336], [nat_lit 1649]),
    ([nat_lit 64337], [nat_lit 1649]),
    ([nat_lit 64338], [nat_lit 1659]),
    ([nat_lit 64339], [nat_lit 1659]),
    ([nat_lit 64340], [nat_lit 1659]),
    ([nat_lit 64341], [nat_lit 1659]),
    ([nat_lit 64342], [nat_lit 1662]),
    ([nat_lit 64343], [nat_lit 1662]),
    ([nat_lit 64344], [nat_lit 1662]),
    ([nat_lit 64345], [nat_lit 1662]),
    ([nat_lit 64346], [nat_lit 1664]),
    ([nat_lit 64347], [nat_lit 1664]),
    ([nat_lit 64348], [nat_lit 1664]),
    ([nat_lit 64349], [nat_lit 1664]),
    ([nat_lit 64350], [nat_lit 1658]),
    ([nat_lit 64351], [nat_lit 1658]),
    ([nat_lit 64352], [nat_lit 1658]),
    ([nat_lit 64353], [nat_lit 1658]),
    ([nat_lit 64354], [nat_lit 1663]),
    ([nat_lit 64355], [nat_lit 1663]),
    ([nat_lit 64356], [nat_lit 1663]),
    ([nat_lit 64357], [nat_lit 1663]),
    ([nat_lit 64358], [nat_lit 1657]),
    ([nat_lit 64359], [nat_lit 1657]),
    ([nat_lit 64360], [nat_lit 1657]),
    ([nat_lit 64361], [nat_lit 1657]),
    ([nat_lit 64362], [nat_lit 1700]),
    ([nat_lit 64363], [nat_lit 1700]),
    ([nat_lit 64364], [nat_lit 1700]),
    ([nat_lit 64365], [nat_lit 1700]),
    ([nat_lit 64366], [nat_lit 1702]),
    ([nat_lit 64367], [nat_lit 1702]),
    ([nat_lit 64368], [nat_lit 1702]),
    ([nat_lit 64369], [nat_lit 1702]),
    ([nat_lit 64370], [nat_lit 1668]),
    ([nat_lit 64371], [nat_lit 1668]),
    ([nat_lit 64372], [nat_lit 1668]),
    ([nat_lit 64373], [nat_lit 1668]),
    ([nat_lit 64374], [nat_lit 1667]),
    ([nat_lit 64375], [nat_lit 1667]),
    ([nat_lit 64376], [nat_lit 1667]),
    ([nat_lit 64377], [nat_lit 1667]),
    ([nat_lit 64378], [nat_lit 1670]),
    ([nat_lit 64379], [nat_lit 1670]),
    ([nat_lit 64380], [nat_lit 1670]),
    ([nat_lit 64381], [nat_lit 1670]),
    ([nat_lit 64382], [nat_lit 1671]),
    ([nat_lit 64383], [nat_lit 1671]),
    ([nat_lit 64384], [nat_lit 1671]),
    ([nat_lit 64385], [nat_lit 1671]),
    ([nat_lit 64386], [nat_lit 1677]),
    ([nat_lit 64387], [nat_lit 1677]),
    ([nat_lit 64388], [nat_lit 1676]),
    ([nat_lit 64389], [nat_lit 1676]),
    ([nat_lit 64392], [nat_lit 1672]),
    ([nat_lit 64393], [nat_lit 1672]),
    ([nat_lit 64394], [nat_lit 1688]),
    ([nat_lit 64395], [nat_lit 1688]),
    ([nat_lit 64396], [nat_lit 1681]),
    ([nat_lit 64397], [nat_lit 1681]),
    ([nat_lit 64398], [nat_lit 1705]),
    ([nat_lit 64399], [nat_lit 1705]),
    ([nat_lit 64400], [nat_lit 1705]),
    ([nat_lit 64401], [nat_lit 1705]),
    ([nat_lit 64402], [nat_lit 1711]),
    ([nat_lit 64403], [nat_lit 1711]),
    ([nat_lit 64404], [nat_lit 1711]),
    ([nat_lit 64405], [nat_lit 1711]),
    ([nat_lit 64406], [nat_lit 1715]),
    ([nat_lit 64407], [nat_lit 1715]),
    ([nat_lit 64408], [nat_lit 1715]),
    ([nat_lit 64409], [nat_lit 1715]),
    ([nat_lit 64410], [nat_lit 1713]),
    ([nat_lit 64411], [nat_lit 1713]),
    ([nat_lit 64412], [nat_lit 1713]),
    ([nat_lit 64413], [nat_lit 1713]),
    ([nat_lit 64414], [nat_lit 1722]),
    ([nat_lit 64415], [nat_lit 1722]),
    ([nat_lit 64416], [nat_lit 1723]),
    ([nat_lit 64417], [nat_lit 1723]),
    ([nat_lit 64418], [nat_lit 1723]),
    ([nat_lit 64419], [nat_lit 1723]),
    ([nat_lit 64420], [nat_lit 1728]),
    ([nat_lit 64421], [nat_lit 1728]),
    ([nat_lit 64422], [nat_lit 1729]),
    ([nat_lit 64423], [nat_lit 1729]),
    ([nat_lit 64424], [nat_lit 1729]),
    ([nat_lit 64425], [nat_lit 1729]),
    ([nat_lit 64426], [nat_lit 1726]),
    ([nat_lit 64427], [nat_lit 1726]),
    ([nat_lit 64428], [nat_lit 1726]),
    ([nat_lit 64429], [nat_lit 1726]),
    ([nat_lit 64430], [nat_lit 1746]),
    ([nat_lit 64431], [nat_lit 1746]),
    ([nat_lit 64432], [nat_lit 1747]),
    ([nat_lit 64433], [nat_lit 1747]),
    ([nat_lit 64467], [nat_lit 1709]),
    ([nat_lit 64468], [nat_lit 1709]),
    ([nat_lit 64469], [nat_lit 1709]),
    ([nat_lit 64470], [nat_lit 1709]),
    ([nat_lit 64471], [nat_lit 1735]),
    ([nat_lit 64472], [nat_lit 1735]),
    ([nat_lit 64473], [nat_lit 1734]),
    ([nat_lit 64474], [nat_lit 1734]),
    ([nat_lit 64477], [nat_lit 1655]),
    ([nat_lit 64478], [nat_lit 1739]),
    ([nat_lit 64479], [nat_lit 1739]),
    ([nat_lit 64480], [nat_lit 1733]),
    ([nat_lit 64481], [nat_lit 1733]),
    ([nat_lit 64484], [nat_lit 1744]),
    ([nat_lit 64485], [nat_lit 1744]),
    ([nat_lit 64486], [nat_lit 1744]),
    ([nat_lit 64487], [nat_lit 1744]),
    ([nat_lit 64488], [nat_lit 1609]),
    ([nat_lit 64489], [nat_lit 1609]),
    ([nat_lit 64490], [nat_lit 1574, nat_lit 1575]),
    ([nat_lit 64491], [nat_lit 1574, nat_lit 1575]),
    ([nat_lit 64492], [nat_lit 1574, nat_lit 1749]),
    ([nat_lit 64493], [nat_lit 1574, nat_lit 1749]),
    ([nat_lit 64494], [nat_lit 1574, nat_lit 1608]),
    ([nat_lit 64495], [nat_lit 1574, nat_lit 1608]),
    ([nat_lit 64496], [nat_lit 1574, nat_lit 1735]),
    ([nat_lit 64497], [nat_lit 1574, nat_lit 1735]),
    ([nat_lit 64498], [nat_lit 1574, nat_lit 1734]),
    ([nat_lit 64499], [nat_lit 1574, nat_lit 1734]),
    ([nat_lit 64502], [nat_lit 1574, nat_lit 1744]),
    ([nat_lit 64503], [nat_lit 1574, nat_lit 1744]),
    ([nat_lit 64504], [nat_lit 1574, nat_lit 1744]),
    ([nat_lit 64505], [nat_lit 1574, nat_lit 1609]),
    ([nat_lit 64506], [nat_lit 1574, nat_lit 1609]),
    ([nat_lit 64507], [nat_lit 1574, nat_lit 1609]),
    ([nat_lit 64508], [nat_lit 1740]),
    ([nat_lit 64509], [nat_lit 1740]),
    ([nat_lit 64510], [nat_lit 1740]),
    ([nat_lit 64511], [nat_lit 1740]),
    ([nat_lit 64512], [nat_lit 1574, nat_lit 1580]),
    ([nat_lit 64513], [nat_lit 1574, nat_lit 1581]),
    ([nat_lit 64514], [nat_lit 1574, nat_lit 1605]),
    ([nat_lit 64515], [nat_lit 1574, nat_lit 1609]),
    ([nat_lit 64516], [nat_lit 1574, nat_lit 1610]),
    ([nat_lit 64517], [nat_lit 1576, nat_lit 1580]),
    ([nat_lit 64518], [nat_lit 1576, nat_lit 1581]),
    ([nat_lit 64519], [nat_lit 1576, nat_lit 1582]),
    ([nat_lit 64520], [nat_lit 1576, nat_lit 1605]),
    ([nat_lit 64521], [nat_lit 1576, nat_lit 1609]),
    ([nat_lit 64522], [nat_lit 1576, nat_lit 1610]),
    ([nat_lit 64523], [nat_lit 1578, nat_lit 1580]),
    ([nat_lit 64524], [nat_lit 1578, nat_lit 1581]),
    ([nat_lit 64525], [nat_lit 1578, nat_lit 1582]),
    ([nat_lit 64526], [nat_lit 1578, nat_lit 1605]),
    ([nat_lit 64527], [nat_lit 1578, nat_lit 1609]),
    ([nat_lit 64528], [nat_lit 1578, nat_lit 1610]),
    ([nat_lit 64529], [nat_lit 1579, nat_lit 1580]),
    ([nat_lit 64530], [nat_lit 1579, nat_lit 1605]),
    ([nat_lit 64531], [nat_lit 1579, nat_lit 1609]),
    ([nat_lit 64532], [nat_lit 1579, nat_lit 1610]),
    ([nat_lit 64533], [nat_lit 1580, nat_lit 1581]),
    ([nat_lit 64534], [nat_lit 1580, nat_lit 1605]),
    ([nat_lit 64535], [nat_lit 1581, nat_lit 1580]),
    ([nat_lit 64536], [nat_lit 1581, nat_lit 1605]),
    ([nat_lit 64537], [nat_lit 1582, nat_lit 1580]),
    ([nat_lit 64538], [nat_lit 1582, nat_lit 1581]),
    ([nat_lit 64539], [nat_lit 1582, nat_lit 1605]),
    ([nat_lit 64540], [nat_lit 1587, nat_lit 1580]),
    ([nat_lit 64541], [nat_lit 1587, nat_lit 1581]),
    ([nat_lit 64542], [nat_lit 1587, nat_lit 1582]),
    ([nat_lit 64543], [nat_lit 1587, nat_lit 1605]),
    ([nat_lit 64544], [nat_lit 1589, nat_lit 1581]),
    ([nat_lit 64545], [nat_lit 1589, nat_lit 1605]),
    ([nat_lit 64546], [nat_lit 1590, nat_lit 1580]),
    ([nat_lit 64547], [nat_lit 1590, nat_lit 1581]),
    ([nat_lit 64548], [nat_lit 1590, nat_lit 1582]),
    ([nat_lit 64549], [nat_lit 1590, nat_lit 1605]),
    ([nat_lit 64550], [nat_lit 1591, nat_lit 1581]),
    ([nat_lit 64551], [nat_lit 1591, nat_lit 1605]),
    ([nat_lit 64552], [nat_lit 1592, nat_lit 1605]),
    ([nat_lit 64553], [nat_lit 1593, nat_lit 1580]),
    ([nat_lit 64554], [nat_lit 1593, nat_lit 1605]),
    ([nat_lit 64555], [nat_lit 1594, nat_lit 1580]),
    ([nat_lit 64556], [nat_lit 1594, nat_lit 1605]),
    ([nat_lit 64557], [nat_lit 1601, nat_lit 1580]),
    ([nat_lit 64558], [nat_lit 1601, nat_lit 1581]),
    ([nat_lit 64559], [nat_lit 1601, nat_lit 1582]),
    ([nat_lit 64560], [nat_lit 1601, nat_lit 1605]),
    ([nat_lit 64561], [nat_lit 1601, nat_lit 1609]),
    ([nat_lit 64562], [nat_lit 1601, nat_lit 1610]),
    ([nat_lit 64563], [nat_lit 1602, nat_lit 1581]),
    ([nat_lit 64564], [nat_lit 1602, nat_lit 1605]),
    ([nat_lit 64565], [nat_lit 1602, nat_lit 1609]),
    ([nat_lit 64566], [nat_lit 1602, nat_lit 1610]),
    ([nat_lit 64567], [nat_lit 1603, nat_lit 1575]),
    ([nat_lit 64568], [nat_lit 1603, nat_lit 1580]),
    ([nat_lit 64569], [nat_lit 1603, nat_lit 1581]),
    ([nat_lit 64570], [nat_lit 1603, nat_lit 1582]),
    ([nat_lit 64571], [nat_lit 1603, nat_lit 1604]),
    ([nat_lit 64572], [nat_lit 1603, nat_lit 1605]),
    ([nat_lit 64573], [nat_lit 1603, nat_lit 1609]),
    ([nat_lit 64574], [nat_lit 1603, nat_lit 1610]),
    ([nat_lit 64575], [nat_lit 1604, nat_lit 1580]),
    ([nat_lit 64576], [nat_lit 1604, nat_lit 1581]),
    ([nat_lit 64577], [nat_lit 1604, nat_lit 1582]),
    ([nat_lit 64578], [nat_lit 1604, nat_lit 1605]),
    ([nat_lit 64579], [nat_lit 1604, nat_lit 1609]),
    ([nat_lit 64580], [nat_lit 1604, nat_lit 1610]),
    ([nat_lit 64581], [nat_lit 1605, nat_lit 1580]),
    ([nat_lit 64582], [nat_lit 1605, nat_lit 1581]),
    ([nat_lit 64583], [nat_lit 1605, nat_lit 1582]),
    ([nat_lit 64584], [nat_lit 1605, nat_lit 1605]),
    ([nat_lit 64585], [nat_lit 1605, nat_lit 1609]),
    ([nat_lit 64586], [nat_lit 1605, nat_lit 1610]),
    ([nat_lit 64587], [nat_lit 1606, nat_lit 1580]),
    ([nat_lit 64588], [nat_lit 1606, nat_lit 1581]),
    ([nat_lit 64589], [nat_lit 1606, nat_lit 1582]),
    ([nat_lit 64590], [nat_lit 1606, nat_lit 1605]),
    ([nat_lit 64591], [nat_lit 1606, nat_lit 1609]),
    ([nat_lit 64592], [nat_lit 1606, nat_lit 1610]),
    ([nat_lit 64593], [nat_lit 1607, nat_lit 1580]),
    ([nat_lit 64594], [nat_lit 1607, nat_lit 1605]),
    ([nat_lit 64595], [nat_lit 1607, nat_lit 1609]),
    ([nat_lit 64596], [nat_lit 1607, nat_lit 1610]),
    ([nat_lit 64597], [nat_lit 1610, nat_lit 1580]),
    ([nat_lit 64598], [nat_lit 1610, nat_lit 1581]),
    ([nat_lit 64599], [nat_lit 1610, nat_lit 1582]),
    ([nat_lit 64600], [nat_lit 1610, nat_lit 1605]),
    ([nat_lit 64601], [nat_lit 1610, nat_lit 1609]),
    ([nat_lit 64602], [nat_lit 1610, nat_lit 1610]),
    ([nat_lit 64603], [nat_lit 1584, nat_lit 1648]),
    ([nat_lit 64604], [nat_lit 1585, nat_lit 1648]),
    ([nat_lit 64605], [nat_lit 1609, nat_lit 1648]),
    ([nat_lit 64612], [nat_lit 1574, nat_lit 1585]),
    ([nat_lit 64613], [nat_lit 1574, nat_lit 1586]),
    ([nat_lit 64614], [nat_lit 1574, nat_lit 1605]),
    ([nat_lit 64615], [nat_lit 1574, nat_lit 1606]),
    ([nat_lit 64616], [nat_lit 1574, nat_lit 1609]),
    ([nat_lit 64617], [nat_lit 1574, nat_lit 1610]),
    ([nat_lit 64618], [nat_lit 1576, nat_lit 1585]),
    ([nat_lit 64619], [nat_lit 1576, nat_lit 1586]),
    ([nat_lit 64620], [nat_lit 1576, nat_lit 1605]),
    ([nat_lit 64621], [nat_lit 1576, nat_lit 1606]),
    ([nat_lit 64622], [nat_lit 1576, nat_lit 1609]),
    ([nat_lit 64623], [nat_lit 1576, nat_lit 1610]),
    ([nat_lit 64624], [nat_lit 1578, nat_lit 1585]),
    ([nat_lit 64625], [nat_lit 1578, nat_lit 1586]),
    ([nat_lit 64626], [nat_lit 1578, nat_lit 1605]),
    ([nat_lit 64627], [nat_lit 1578, nat_lit 1606]),
    ([nat_lit 64628], [nat_lit 1578, nat_lit 1609]),
    ([nat_lit 64629], [nat_lit 1578, nat_lit 1610]),
    ([nat_lit 64630], [nat_lit 1579, nat_lit 1585]),
    ([nat_lit 64631], [nat_lit 1579, nat_lit 1586]),
    ([nat_lit 64632], [nat_lit 1579, nat_lit 1605]),
    ([nat_lit 64633], [nat_lit 1579, nat_lit 1606]),
    ([nat_lit 64634], [nat_lit 1579, nat_lit 1609]),
    ([nat_lit 64635], [nat_lit 1579, nat_lit 1610]),
    ([nat_lit 64636], [nat_lit 1601, nat_lit 1609]),
    ([nat_lit 64637], [nat_lit 1601, nat_lit 1610]),
    ([nat_lit 64638], [nat_lit 1602, nat_lit 1609]),
    ([nat_lit 64639], [nat_lit 1602, nat_lit 1610]),
    ([nat_lit 64640], [nat_lit 1603, nat_lit 1575]),
    ([nat_lit 64641], [nat_lit 1603, nat_lit 1604]),
    ([nat_lit 64642], [nat_lit 1603, nat_lit 1605]),
    ([nat_lit 64643], [nat_lit 1603, nat_lit 1609]),
    ([nat_lit 64644], [nat_lit 1603, nat_lit 1610]),
    ([nat_lit 64645], [nat_lit 1604, nat_lit 1605]),
    ([nat_lit 64646], [nat_lit 1604, nat_lit 1609]),
    ([nat_lit 64647], [nat_lit 1604, nat_lit 1610]),
    ([nat_lit 64648], [nat_lit 1605, nat_lit 1575]),
    ([nat_lit 64649], [nat_lit 1605, nat_lit 1605]),
    ([nat_lit 64650], [nat_lit 1606, nat_lit 1585]),
    ([nat_lit 64651], [nat_lit 1606, nat_lit 1586]),
    ([nat_lit 64652], [nat_lit 1606, nat_lit 1605]),
    ([nat_lit 64653], [nat_lit 1606, nat_lit 1606]),
    ([nat_lit 64654], [nat_lit 1606, nat_lit 1609]),
    ([nat_lit 64655], [nat_lit 1606, nat_lit 1610]),
    ([nat_lit 64656], [nat_lit 1609, nat_lit 1648]),
    ([nat_lit 64657], [nat_lit 1610, nat_lit 1585]),
    ([nat_lit 64658], [nat_lit 1610, nat_lit 1586]),
    ([nat_lit 64659], [nat_lit 1610, nat_lit 1605]),
    ([nat_lit 64660], [nat_lit 1610, nat_lit 1606]),
    ([nat_lit 64661], [nat_lit 1610, nat_lit 1609]),
    ([nat_lit 64662], [nat_lit 1610, nat_lit 1610]),
    ([nat_lit 64663], [nat_lit 1574, nat_lit 1580]),
    ([nat_lit 64664], [nat_lit 1574, nat_lit 1581]),
    ([nat_lit 64665], [nat_lit 1574, nat_lit 1582]),
    ([nat_lit 64666], [nat_lit 1574, nat_lit 1605]),
    ([nat_lit 64667], [nat_lit 1574, nat_lit 1607]),
    ([nat_lit 64668], [nat_lit 1576, nat_lit 1580]),
    ([nat_lit 64669], [nat_lit 1576, nat_lit 1581]),
    ([nat_lit 64670], [nat_lit 1576, nat_lit 1582]),
    ([nat_lit 64671], [nat_lit 1576, nat_lit 1605]),
    ([nat_lit 64672], [nat_lit 1576, nat_lit 1607]),
    ([nat_lit 64673], [nat_lit 1578, nat_lit 1580]),
    ([nat_lit 64674], [nat_lit 1578, nat_lit 1581]),
    ([nat_lit 64675], [nat_lit 1578, nat_lit 1582]),
    ([nat_lit 64676], [nat_lit 1578, nat_lit 1605]),
    ([nat_lit 64677], [nat_lit 1578, nat_lit 1607]),
    ([nat_lit 64678], [nat_lit 1579, nat_lit 1605]),
    ([nat_lit 64679], [nat_lit 1580, nat_lit 1581]),
    ([nat_lit 64680], [nat_lit 1580, nat_lit 1605]),
    ([nat_lit 64681], [nat_lit 1581, nat_lit 1580]),
    ([nat_lit 64682], [nat_lit 1581, nat_lit 1605]),
    ([nat_lit 64683], [nat_lit 1582, nat_lit 1580]),
    ([nat_lit 64684], [nat_lit 1582, nat_lit 1605]),
    ([nat_lit 64685], [nat_lit 1587, nat_lit 1580]),
    ([nat_lit 64686], [nat_lit 1587, nat_lit 1581]),
    ([nat_lit 64687], [nat_lit 1587, nat_lit 1582]),
    ([nat_lit 64688], [nat_lit 1587, nat_lit 1605]),
    ([nat_lit 64689], [nat_lit 1589, nat_lit 1581]),
    ([nat_lit 64690], [nat_lit 1589, nat_lit 1582]),
    ([nat_lit 64691], [nat_lit 1589, nat_lit 1605]),
    ([nat_lit 64692], [nat_lit 1590, nat_lit 1580]),
    ([nat_lit 64693], [nat_lit 1590, nat_lit 1581]),
    ([nat_lit 64694], [nat_lit 1590, nat_lit 1582]),
    ([nat_lit 64695], [nat_lit 1590, nat_lit 1605]),
    ([nat_lit 64696], [nat_lit 1591, nat_lit 1581]),
    ([nat_lit 64697], [nat_lit 1592, nat_lit 1605]),
    ([nat_lit 64698], [nat_lit 1593, nat_lit 1580]),
    ([nat_lit 64699], [nat_lit 1593, nat_lit 1605]),
    ([nat_lit 64700], [nat_lit 1594, nat_lit 1580]),
    ([nat_lit 64701], [nat_lit 1594, nat_lit 1605]),
    ([nat_lit 64702], [nat_lit 1601, nat_lit 1580]),
    ([nat_lit 64703], [nat_lit 1601, nat_lit 1581]),
    ([nat_lit 64704], [nat_lit 1601, nat_lit 1582]),
    ([nat_lit 64705], [nat_lit 1601, nat_lit 1605]),
    ([nat_lit 64706], [nat_lit 1602, nat_lit 1581]),
    ([nat_lit 64707], [nat_lit 1602, nat_lit 1605]),
    ([nat_lit 64708], [nat_lit 1603, nat_lit 1580]),
    ([nat_lit 64709], [nat_lit 1603, nat_lit 1581]),
    ([nat_lit 64710], [nat_lit 1603, nat_lit 1582]),
    ([nat_lit 64711], [nat_lit 1603, nat_lit 1604]),
    ([nat_lit 64712], [nat_lit 1603, nat_lit 1605]),
    ([nat_lit 64713], [nat_lit 1604, nat_lit 1580]),
    ([nat_lit 64714], [nat_lit 1604, nat_lit 1581]),
    ([nat_lit 64715], [nat_lit 1604, nat_lit 1582]),
    ([nat_lit 64716], [nat_lit 1604, nat_lit 1605]),
    ([nat_lit 64717], [nat_lit 1604, nat_lit 1607]),
    ([nat_lit 64718], [nat_lit 1605, nat_lit 1580]),
    ([nat_lit 64719], [nat_lit 1605, nat_lit 1581]),
    ([nat_lit 64720], [nat_lit 1605, nat_lit 1582]),
    ([nat_lit 64721], [nat_lit 1605, nat_lit 1605]),
    ([nat_lit 64722], [nat_lit 1606, nat_lit 1580]),
    ([nat_lit 64723], [nat_lit 1606, nat_lit 1581]),
    ([nat_lit 64724], [nat_lit 1606, nat_lit 1582]),
    ([nat_lit 64725], [nat_lit 1606, nat_lit 1605]),
    ([nat_lit 64726], [nat_lit 1606, nat_lit 1607]),
    ([nat_lit 64727], [nat_lit 1607, nat_lit 1580]),
    ([nat_lit 64728], [nat_lit 1607, nat_lit 1605]),
    ([nat_lit 64729], [nat_lit 1607, nat_lit 1648]),
    ([nat_lit 64730], [nat_lit 1610, nat_lit 1580]),
    ([nat_lit 64731], [nat_lit 1610, nat_lit 1581]),
    ([nat_lit 64732], [nat_lit 1610, nat_lit 1582]),
    ([nat_lit 64733], [nat_lit 1610, nat_lit 1605]),
    ([nat_lit 64734], [nat_lit 1610, nat_lit 1607]),
    ([nat_lit 64735], [nat_lit 1574, nat_lit 1605]),
    ([nat_lit 64736], [nat_lit 1574, nat_lit 1607]),
    ([nat_lit 64737], [nat_lit 1576, nat_lit 1605]),
    ([nat_lit 64738], [nat_lit 1576, nat_lit 1607]),
    ([nat_lit 64739], [nat_lit 1578, nat_lit 1605]),
    ([nat_lit 64740], [nat_lit 1578, nat_lit 1607]),
    ([nat_lit 64741], [nat_lit 1579, nat_lit 1605]),
    ([nat_lit 64742], [nat_lit 1579, nat_lit 1607]),
    ([nat_lit 64743], [nat_lit 1587, nat_lit 1605]),
    ([nat_lit 64744], [nat_lit 1587, nat_lit 1607]),
    ([nat_lit 64745], [nat_lit 1588, nat_lit 1605]),
    ([nat_lit 64746], [nat_lit 1588, nat_lit 1607]),
    ([nat_lit 64747], [nat_lit 1603, nat_lit 1604]),
    ([nat_lit 64748], [nat_lit 1603, nat_lit 1605]),
    ([nat_lit 64749], [nat_lit 1604, nat_lit 1605]),
    ([nat_lit 64750], [nat_lit 1606, nat_lit 1605]),
    ([nat_lit 64751], [nat_lit 1606, nat_lit 1607]),
    ([nat_lit 64752], [nat_lit 1610, nat_lit 1605]),
    ([nat_lit 64753], [nat_lit 1610, nat_lit 1607]),
    ([nat_lit 64757], [nat_lit 1591, nat_lit 1609]),
    ([nat_lit 64758], [nat_lit 1591, nat_lit 1610]),
    ([nat_lit 64759], [nat_lit 1593, nat_lit 1609]),
    ([nat_lit 64760], [nat_lit 1593, nat_lit 1610]),
    ([nat_lit 64761], [nat_lit 1594, nat_lit 1609]),
    ([nat_lit 64762], [nat_lit 1594, nat_lit 1610]),
    ([nat_lit 64763], [nat_lit 1587, nat_lit 1609]),
    ([nat_lit 64764], [nat_lit 1587, nat_lit 1610]),
    ([nat_lit 64765], [nat_lit 1588, nat_lit 1609]),
    ([nat_lit 64766], [nat_lit 1588, nat_lit 1610]),
    ([nat_lit 64767], [nat_lit 1581, nat_lit 1609]),
    ([nat_lit 64768], [nat_lit 1581, nat_lit 1610]),
    ([nat_lit 64769], [nat_lit 1580, nat_lit 1609]),
    ([nat_lit 64770], [nat_lit 1580, nat_lit 1610]),
    ([nat_lit 64771], [nat_lit 1582, nat_lit 1609]),
    ([nat_lit 64772], [nat_lit 1582, nat_lit 1610]),
    ([nat_lit 64773], [nat_lit 1589, nat_lit 1609]),
    ([nat_lit 64774], [nat_lit 1589, nat_lit 1610]),
    ([nat_lit 64775], [nat_lit 1590, nat_lit 1609]),
    ([nat_lit 64776], [nat_lit 1590, nat_lit 1610]),
    ([nat_lit 64777], [nat_lit 1588, nat_lit 1580]),
    ([nat_lit 64778], [nat_lit 1588, nat_lit 1581]),
    ([nat_lit 64779], [nat_lit 1588, nat_lit 1582]),
    ([nat_lit 64780], [nat_lit 1588, nat_lit 1605]),
    ([nat_lit 64781], [nat_lit 1588, nat_lit 1585]),
    ([nat_lit 64782], [nat_lit 1587, nat_lit 1585]),
    ([nat_lit 64783], [nat_lit 1589, nat_lit 1585]),
    ([nat_lit 64784], [nat_lit 1590, nat_lit 1585]),
    ([nat_lit 64785], [nat_lit 1591, nat_lit 1609]),
    ([nat_lit 64786], [nat_lit 1591, nat_lit 1610]),
    ([nat_lit 64787], [nat_lit 1593, nat_lit 1609]),
    ([nat_lit 64788], [nat_lit 1593, nat_lit 1610]),
    ([nat_lit 64789], [nat_lit 1594, nat_lit 1609]),
    ([nat_lit 64790], [nat_lit 1594, nat_lit 1610]),
    ([nat_lit 64791], [nat_lit 1587, nat_lit 1609]),
    ([nat_lit 64792], [nat_lit 1587, nat_lit 1610]),
    ([nat_lit 64793], [nat_lit 1588, nat_lit 1609]),
    ([nat_lit 64794], [nat_lit 1588, nat_lit 1610]),
    ([nat_lit 64795], [nat_lit 1581, nat_lit 1609]),
    ([nat_lit 64796], [nat_lit 1581, nat_lit 1610]),
    ([nat_lit 64797], [nat_lit 1580, nat_lit 1609]),
    ([nat_lit 64798], [nat_lit 1580, nat_lit 1610]),
    ([nat_lit 64799], [nat_lit 1582, nat_lit 1609]),
    ([nat_lit 64800], [nat_lit 1582, nat_lit 1610]),
    ([nat_lit 64801], [nat_lit 1589, nat_lit 1609]),
    ([nat_lit 64802], [nat_lit 1589, nat_lit 1610]),
    ([nat_lit 64803], [nat_lit 1590, nat_lit 1609]),
    ([nat_lit 64804], [nat_lit 1590, nat_lit 1610]),
    ([nat_lit 64805], [nat_lit 1588, nat_lit 1580]),
    ([nat_lit 64806], [nat_lit 1588, nat_lit 1581]),
    ([nat_lit 64807], [nat_lit 1588, nat_lit 1582]),
    ([nat_lit 64808], [nat_lit 1588, nat_lit 1605]),
    ([nat_lit 64809], [nat_lit 1588, nat_lit 1585]),
    ([nat_lit 64810], [nat_lit 1587, nat_lit 1585]),
    ([nat_lit 64811], [nat_lit 1589, nat_lit 1585]),
    ([nat_lit 64812], [nat_lit 1590, nat_lit 1585]),
    ([nat_lit 64813], [nat_lit 1588, nat_lit 1580]),
    ([nat_lit 64814], [nat_lit 1588, nat_lit 1581]),
    ([nat_lit 64815], [nat_lit 1588, nat_lit 1582]),
    ([nat_lit 64816], [nat_lit 1588, nat_lit 1605]),
    ([nat_lit 64817], [nat_lit 1587, nat_lit 1607]),
    ([nat_lit 64818], [nat_lit 1588, nat_lit 1607]),
    ([nat_lit 64819], [nat_lit 1591, nat_lit 1605]),
    ([nat_lit 64820], [nat_lit 1587, nat_lit 1580]),
    ([nat_lit 64821], [nat_lit 1587, nat_lit 1581]),
    ([nat_lit 64822], [nat_lit 1587, nat_lit 1582]),
    ([nat_lit 64823], [nat_lit 1588, nat_lit 1580]),
    ([nat_lit 64824], [nat_lit 1588, nat_lit 1581]),
    ([nat_lit 64825], [nat_lit 1588, nat_lit 1582]),
    ([nat_lit 64826], [nat_lit 1591, nat_lit 1605]),
    ([nat_lit 64827], [nat_lit 1592, nat_lit 1605]),
    ([nat_lit 64828], [nat_lit 1575, nat_lit 1611]),
    ([nat_lit 64829], [nat_lit 1575, nat_lit 1611]),
    ([nat_lit 64848], [nat_lit 1578, nat_lit 1580, nat_lit 1605]),
    ([nat_lit 64849], [nat_lit 1578, nat_lit 1581, nat_lit 1580]),
    ([nat_lit 64850], [nat_lit 1578, nat_lit 1581, nat_lit 1580]),
    ([nat_lit 64851], [nat_lit 1578, nat_lit 1581, nat_lit 1605]),
    ([nat_lit 64852], [nat_lit 1578, nat_lit 1582, nat_lit 1605]),
    ([nat_lit 64853], [nat_lit 1578, nat_lit 1605, nat_lit 1580]),
    ([nat_lit 64854], [nat_lit 1578, nat_lit 1605, nat_lit 1581]),
    ([nat_lit 64855], [nat_lit 1578, nat_lit 1605, nat_lit 1582]),
    ([nat_lit 64856], [nat_lit 1580, nat_lit 1605, nat_lit 1581]),
    ([nat_lit 64857], [nat_lit 1580, nat_lit 1605, nat_lit 1581]),
    ([nat_lit 64858], [nat_lit 1581, nat_lit 1605, nat_lit 1610]),
    ([nat_lit 64859], [nat_lit 1581, nat_lit 1605, nat_lit 1609]),
    ([nat_lit 64860], [nat_lit 1587, nat_lit 1581, nat_lit 1580]),
    ([nat_lit 64861], [nat_lit 1587, nat_lit 1580, nat_lit 1581]),
    ([nat_lit 64862], [nat_lit 1587, nat_lit 1580, nat_lit 1609]),
    ([nat_lit 64863], [nat_lit 1587, nat_lit 1605, nat_lit 1581]),
    ([nat_lit 64864], [nat_lit 1587, nat_lit 1605, nat_lit 1581]),
    ([nat_lit 64865], [nat_lit 1587, nat_lit 1605, nat_lit 1580]),
    ([nat_lit 64866], [nat_lit 1587, nat_lit 1605, nat_lit 1605]),
    ([nat_lit 64867], [nat_lit 1587, nat_lit 1605, nat_lit 1605]),
    ([nat_lit 64868], [nat_lit 1589, nat_lit 1581, nat_lit 1581]),
    ([nat_lit 64869], [nat_lit 1589, nat_lit 1581, nat_lit 1581]),
    ([nat_lit 64870], [nat_lit 1589, nat_lit 1605, nat_lit 1605]),
    ([nat_lit 64871], [nat_lit 1588, nat_lit 1581, nat_lit 1605]),
    ([nat_lit 64872], [nat_lit 1588, nat_lit 1581, nat_lit 1605]),
    ([nat_lit 64873], [nat_lit 1588, nat_lit 1580, nat_lit 1610]),
    ([nat_lit 64874], [nat_lit 1588, nat_lit 1605, nat_lit 1582]),
    ([nat_lit 64875], [nat_lit 1588, nat_lit 1605, nat_lit 1582]),
    ([nat_lit 64876], [nat_lit 1588, nat_lit 1605, nat_lit 1605]),
    ([nat_lit 64877], [nat_lit 1588, nat_lit 1605, nat_lit 1605]),
    ([nat_lit 64878], [nat_lit 1590, nat_lit 1581, nat_lit 1609]),
    ([nat_lit 64879], [nat_lit 1590, nat_lit 1582, nat_lit 1605]),
    ([nat_lit 64880], [nat_lit 1590, nat_lit 1582, nat_lit 1605]),
    ([nat_lit 64881], [nat_lit 1591, nat_lit 1605, nat_lit 1581]),
    ([nat_lit 64882], [nat_lit 1591, nat_lit 1605, nat_lit 1581]),
    ([nat_lit 64883], [nat_lit 1591, nat_lit 1605, nat_lit 1605]),
    ([nat_lit 64884], [nat_lit 1591, nat_lit 1605, nat_lit 1610]),
    ([nat_lit 64885], [nat_lit 1593, nat_lit 1580, nat_lit 1605]),
    ([nat_lit 64886], [nat_lit 1593, nat_lit 1605, nat_lit 1605]),
    ([nat_lit 64887], [nat_lit 1593, nat_lit 1605, nat_lit 1605]),
    ([nat_lit 64888], [nat_lit 1593, nat_lit 1605, nat_lit 1609]),
    ([nat_lit 64889], [nat_lit 1594, nat_lit 1605, nat_lit 1605]),
    ([nat_lit 64890], [nat_lit 1594, nat_lit 1605, nat_lit 1610]),
    ([nat_lit 64891], [nat_lit 1594, nat_lit 1605, nat_lit 1609]),
    ([nat_lit 64892], [nat_lit 1601, nat_lit 1582, nat_lit 1605]),
    ([nat_lit 64893], [nat_lit 1601, nat_lit 1582, nat_lit 1605]),
    ([nat_lit 64894], [nat_lit 1602, nat_lit 1605, nat_lit 1581]),
    ([nat_lit 64895], [nat_lit 1602, nat_lit 1605, nat_lit 1605]),
    ([nat_lit 64896], [nat_lit 1604, nat_lit 1581, nat_lit 1605]),
    ([nat_lit 64897], [nat_lit 1604, nat_lit 1581, nat_lit 1610]),
    ([nat_lit 64898], [nat_lit 1604, nat_lit 1581, nat_lit 1609]),
    ([nat_lit 64899], [nat_lit 1604, nat_lit 1580, nat_lit 1580]),
    ([nat_lit 64900], [nat_lit 1604, nat_lit 1580, nat_lit 1580]),
    ([nat_lit 64901], [nat_lit 1604, nat_lit 1582, nat_lit 1605]),
    ([nat_lit 64902], [nat_lit 1604, nat_lit 1582, nat_lit 1605]),
    ([nat_lit 64903], [nat_lit 1604, nat_lit 1605, nat_lit 1581]),
    ([nat_lit 64904], [nat_lit 1604, nat_lit 1605, nat_lit 1581]),
    ([nat_lit 64905], [nat_lit 1605, nat_lit 1581, nat_lit 1580]),
    ([nat_lit 64906], [nat_lit 1605, nat_lit 1581, nat_lit 1605]),
    ([nat_lit 64907], [nat_lit 1605, nat_lit 1581, nat_lit 1610]),
    ([nat_lit 64908], [nat_lit 1605, nat_lit 1580, nat_lit 1581]),
    ([nat_lit 64909], [nat_lit 1605, nat_lit 1580, nat_lit 1605]),
    ([nat_lit 64910], [nat_lit 1605, nat_lit 1582, nat_lit 1580]),
    ([nat_lit 64911], [nat_lit 1605, nat_lit 1582, nat_lit 1605]),
    ([nat_lit 64914], [nat_lit 1605, nat_lit 1580, nat_lit 1582]),
    ([nat_lit 64915], [nat_lit 1607, nat_lit 1605, nat_lit 1580]),
    ([nat_lit 64916], [nat_lit 1607, nat_lit 1605, nat_lit 1605]),
    ([nat_lit 64917], [nat_lit 1606, nat_lit 1581, nat_lit 1605]),
    ([nat_lit 64918], [nat_lit 1606, nat_lit 1581, nat_lit 1609]),
    ([nat_lit 64919], [nat_lit 1606, nat_lit 1580, nat_lit 1605]),
    ([nat_lit 64920], [nat_lit 1606, nat_lit 1580, nat_lit 1605]),
    ([nat_lit 64921], [nat_lit 1606, nat_lit 1580, nat_lit 1609]),
    ([nat_lit 64922], [nat_lit 1606, nat_lit 1605, nat_lit 1610]),
    ([nat_lit 64923], [nat_lit 1606, nat_lit 1605, nat_lit 1609]),
    ([nat_lit 64924], [nat_lit 1610, nat_lit 1605, nat_lit 1605]),
    ([nat_lit 64925], [nat_lit 1610, nat_lit 1605, nat_lit 1605]),
    ([nat_lit 64926], [nat_lit 1576, nat_lit 1582, nat_lit 1610]),
    ([nat_lit 64927], [nat_lit 1578, nat_lit 1580, nat_lit 1610]),
    ([nat_lit 64928], [nat_lit 1578, nat_lit 1580, nat_lit 1609]),
    ([nat_lit 64929], [nat_lit 1578, nat_lit 1582, nat_lit 1610]),
    ([nat_lit 64930], [nat_lit 1578, nat_lit 1582, nat_lit 1609]),
    ([nat_lit 64931], [nat_lit 1578, nat_lit 1605, nat_lit 1610]),
    ([nat_lit 64932], [nat_lit 1578, nat_lit 1605, nat_lit 1609]),
    ([nat_lit 64933], [nat_lit 1580, nat_lit 1605, nat_lit 1610]),
    ([nat_lit 64934], [nat_lit 1580, nat_lit 1581, nat_lit 1609]),
    ([nat_lit 64935], [nat_lit 1580, nat_lit 1605, nat_lit 1609]),
    ([nat_lit 64936], [nat_lit 1587, nat_lit 1582, nat_lit 1609]),
    ([nat_lit 64937], [nat_lit 1589, nat_lit 1581, nat_lit 1610]),
    ([nat_lit 64938], [nat_lit 1588, nat_lit 1581, nat_lit 1610]),
    ([nat_lit 64939], [nat_lit 1590, nat_lit 1581, nat_lit 1610]),
    ([nat_lit 64940], [nat_lit 1604, nat_lit 1580, nat_lit 1610]),
    ([nat_lit 64941], [nat_lit 1604, nat_lit 1605, nat_lit 1610]),
    ([nat_lit 64942], [nat_lit 1610, nat_lit 1581, nat_lit 1610]),
    ([nat_lit 64943], [nat_lit 1610, nat_lit 1580, nat_lit 1610]),
    ([nat_lit 64944], [nat_lit 1610, nat_lit 1605, nat_lit 1610]),
    ([nat_lit 64945], [nat_lit 1605, nat_lit 1605, nat_lit 1610]),
    ([nat_lit 64946], [nat_lit 1602, nat_lit 1605, nat_lit 1610]),
    ([nat_lit 64947], [nat_lit 1606, nat_lit 1581, nat_lit 1610]),
    ([nat_lit 64948], [nat_lit 1602, nat_lit 1605, nat_lit 1581]),
    ([nat_lit 64949], [nat_lit 1604, nat_lit 1581, nat_lit 1605]),
    ([nat_lit 64950], [nat_lit 1593, nat_lit 1605, nat_lit 1610]),
    ([nat_lit 64951], [nat_lit 1603, nat_lit 1605, nat_lit 1610]),
    ([nat_lit 64952], [nat_lit 1606, nat_lit 1580, nat_lit 1581]),
    ([nat_lit 64953], [nat_lit 1605, nat_lit 1582, nat_lit 1610]),
    ([nat_lit 64954], [nat_lit 1604, nat_lit 1580, nat_lit 1605]),
    ([nat_lit 64955], [nat_lit 1603, nat_lit 1605, nat_lit 1605]),
    ([nat_lit 64956], [nat_lit 1604, nat_lit 1580, nat_lit 1605]),
    ([nat_lit 64957], [nat_lit 1606, nat_lit 1580, nat_lit 1581]),
    ([nat_lit 64958], [nat_lit 1580, nat_lit 1581, nat_lit 1610]),
    ([nat_lit 64959], [nat_lit 1581, nat_lit 1580, nat_lit 1610]),
    ([nat_lit 64960], [nat_lit 1605, nat_lit 1580, nat_lit 1610]),
    ([nat_lit 64961], [nat_lit 1601, nat_lit 1605, nat_lit 1610]),
    ([nat_lit 64962], [nat_lit 1576, nat_lit 1581, nat_lit 1610]),
    ([nat_lit 64963], [nat_lit 1603, nat_lit 1605, nat_lit 1605]),
    ([nat_lit 64964], [nat_lit 1593, nat_lit 1580, nat_lit 1605]),
    ([nat_lit 64965], [nat_lit 1589, nat_lit 1605, nat_lit 1605]),
    ([nat_lit 64966], [nat_lit 1587, nat_lit 1582, nat_lit 1610]),
    ([nat_lit 64967], [nat_lit 1606, nat_lit 1580, nat_lit 1610]),
    ([nat_lit 65008], [nat_lit 1589, nat_lit 1604, nat_lit 1746]),
    ([nat_lit 65009], [nat_lit 1602, nat_lit 1604, nat_lit 1746]),
    ([nat_lit 65010], [nat_lit 1575, nat_lit 1604, nat_lit 1604, nat_lit 1607]),
    ([nat_lit 65011], [nat_lit 1575, nat_lit 1603, nat_lit 1576, nat_lit 1585]),
    ([nat_lit 65012], [nat_lit 1605, nat_lit 1581, nat_lit 1605, nat_lit 1583]),
    ([nat_lit 65013], [nat_lit 1589, nat_lit 1604, nat_lit 1593, nat_lit 1605]),
    ([nat_lit 65014], [nat_lit 1585, nat_lit 1587, nat_lit 1608, nat_lit 1604]),
    ([nat_lit 65015], [nat_lit 1593, nat_lit 1604, nat_lit 1610, nat_lit 1607]),
    ([nat_lit 65016], [nat_lit 1608, nat_lit 1587, nat_lit 1604, nat_lit 1605]),
    ([nat_lit 65017], [nat_lit 1589, nat_lit 1604, nat_lit 1609]),
    ([nat_lit 65018], [nat_lit 1589, nat_lit 1604, nat_lit 1609, nat_lit 32, nat_lit 1575, nat_lit 1604, nat_lit 1604, nat_lit 1607, nat_lit 32, nat_lit 1593, nat_lit 1604, nat_lit 1610, nat_lit 1607, nat_lit 32, nat_lit 1608, nat_lit 1587, nat_lit 1604, nat_lit 1605]),
    ([nat_lit 65019], [nat_lit 1580, nat_lit 1604, nat_lit 32, nat_lit 1580, nat_lit 1604, nat_lit 1575, nat_lit 1604, nat_lit 1607]),
    ([nat_lit 65152], [nat_lit 1569]),
    ([nat_lit 65153], [nat_lit 1570]),
    ([nat_lit 65154], [nat_lit 1570]),
    ([nat_lit 65155], [nat_lit 1571]),
    ([nat_lit 65156], [nat_lit 1571]),
    ([nat_lit 65157], [nat_lit 1572]),
    ([nat_lit 65158], [nat_lit 1572]),
    ([nat_lit 65159], [nat_lit 1573]),
    ([nat_lit 65160], [nat_lit 1573]),
    ([nat_lit 65161], [nat_lit 1574]),
    ([nat_lit 65162], [nat_lit 1574]),
    ([nat_lit 65163], [nat_lit 1574]),
    ([nat_lit 65164], [nat_lit 1574]),
    ([nat_lit 65165], [nat_lit 1575]),
    ([nat_lit 65166], [nat_lit 1575]),
    ([nat_lit 65167], [nat_lit 1576]),
    ([nat_lit 65168], [nat_lit 1576]),
    ([nat_lit 65169], [nat_lit 1576]),
    ([nat_lit 65170], [nat_lit 1576]),
    ([nat_lit 65171], [nat_lit 1577]),
    ([nat_lit 65172], [nat_lit 1577]),
    ([nat_lit 65173], [nat_lit 1578]),
    ([nat_lit 65174], [nat_lit 1578]),
    ([nat_lit 65175], [nat_lit 1578]),
    ([nat_lit 65176], [nat_lit 1578]),
    ([nat_lit 65177], [nat_lit 1579]),
    ([nat_lit 65178], [nat_lit 1579]),
    ([nat_lit 65179], [nat_lit 1579]),
    ([nat_lit 65180], [nat_lit 1579]),
    ([nat_lit 65181], [nat_lit 1580]),
    ([nat_lit 65182], [nat_lit 1580]),
    ([nat_lit 65183], [nat_lit 1580]),
    ([nat_lit 65184], [nat_lit 1580]),
    ([nat_lit 65185], [nat_lit 1581]),
    ([nat_lit 65186], [nat_lit 1581]),
    ([nat_lit 65187], [nat_lit 1581]),
    ([nat_lit 65188], [nat_lit 1581]),
    ([nat_lit 65189], [nat_lit 1582]),
    ([nat_lit 65190], [nat_lit 1582]),
    ([nat_lit 65191], [nat_lit 1582]),
    ([nat_lit 65192], [nat_lit 1582]),
    ([nat_lit 65193], [nat_lit 1583]),
    ([nat_lit 65194], [nat_lit 1583]),
    ([nat_lit 65195], [nat_lit 1584]),
    ([nat_lit 65196], [nat_lit 1584]),
    ([nat_lit 65197], [nat_lit 1585]),
    ([nat_lit 65198], [nat_lit 1585]),
    ([nat_lit 65199], [nat_lit 1586]),
    ([nat_lit 65200], [nat_lit 1586]),
    ([nat_lit 65201], [nat_lit 1587]),
    ([nat_lit 65202], [nat_lit 1587]),
    ([nat_lit 65203], [nat_lit 1587]),
    ([nat_lit 65204], [nat_lit 1587]),
    ([nat_lit 65205], [nat_lit 1588]),
    ([nat_lit 65206], [nat_lit 1588]),
    ([nat_lit 65207], [nat_lit 1588]),
    ([nat_lit 65208], [nat_lit 1588]),
    ([nat_lit 65209], [nat_lit 1589]),
    ([nat_lit 65210], [nat_lit 1589]),
    ([nat_lit 65211], [nat_lit 1589]),
    ([nat_lit 65212], [nat_lit 1589]),
    ([nat_lit 65213], [nat_lit 1590]),
    ([nat_lit 65214], [nat_lit 1590]),
    ([nat_lit 65215], [nat_lit 1590]),
    ([nat_lit 65216], [nat_lit 1590]),
    ([nat_lit 65217], [nat_lit 1591]),
    ([nat_lit 65218], [nat_lit 1591]),
    ([nat_lit 65219], [nat_lit 1591]),
    ([nat_lit 65220], [nat_lit 1591]),
    ([nat_lit 65221], [nat_lit 1592]),
    ([nat_lit 65222], [nat_lit 1592]),
    ([nat_lit 65223], [nat_lit 1592]),
    ([nat_lit 65224], [nat_lit 1592]),
    ([nat_lit 65225], [nat_lit 1593]),
    ([nat_lit 65226], [nat_lit 1593]),
    ([nat_lit 65227], [nat_lit 1593]),
    ([nat_lit 65228], [nat_lit 1593]),
    ([nat_lit 65229], [nat_lit 1594]),
    ([nat_lit 65230], [nat_lit 1594]),
    ([nat_lit 65231], [nat_lit 1594]),
    ([nat_lit 65232], [nat_lit 1594]),
    ([nat_lit 65233], [nat_lit 1601]),
    ([nat_lit 65234], [nat_lit 1601]),
    ([nat_lit 65235], [nat_lit 1601]),
    ([nat_lit 65236], [nat_lit 1601]),
    ([nat_lit 65237], [nat_lit 1602]),
    ([nat_lit 65238], [nat_lit 1602]),
    ([nat_lit 65239], [nat_lit 1602]),
    ([nat_lit 65240], [nat_lit 1602]),
    ([nat_lit 65241], [nat_lit 1603]),
    ([nat_lit 65242], [nat_lit 1603]),
    ([nat_lit 65243], [nat_lit 1603]),
    ([nat_lit 65244], [nat_lit 1603]),
    ([nat_lit 65245], [nat_lit 1604]),
    ([nat_lit 65246], [nat_lit 1604]),
    ([nat_lit 65247], [nat_lit 1604]),
    ([nat_lit 65248], [nat_lit 1604]),
    ([nat_lit 65249], [nat_lit 1605]),
    ([nat_lit 65250], [nat_lit 1605]),
    ([nat_lit 65251], [nat_lit 1605]),
    ([nat_lit 65252], [nat_lit 1605]),
    ([nat_lit 65253], [nat_lit 1606]),
    ([nat_lit 65254], [nat_lit 1606]),
    ([nat_lit 65255], [nat_lit 1606]),
    ([nat_lit 65256], [nat_lit 1606]),
    ([nat_lit 65257], [nat_lit 1607]),
    ([nat_lit 65258], [nat_lit 1607]),
    ([nat_lit 65259], [nat_lit 1607]),
    ([nat_lit 65260], [nat_lit 1607]),
    ([nat_lit 65261], [nat_lit 1608]),
    ([nat_lit 65262], [nat_lit 1608]),
    ([nat_lit 65263], [nat_lit 1609]),
    ([nat_lit 65264], [nat_lit 1609]),
    ([nat_lit 65265], [nat_lit 1610]),
    ([nat_lit 65266], [nat_lit 1610]),
    ([nat_lit 65267], [nat_lit 1610]),
    ([nat_lit 65268], [nat_lit 1610]),
    ([nat_lit 65269], [nat_lit 1604, nat_lit 1570]),
    ([nat_lit 65270], [nat_lit 1604, nat_lit 1570]),
    ([nat_lit 65271], [nat_lit 1604, nat_lit 1571]),
    ([nat_lit 65272], [nat_lit 1604, nat_lit 1571]),
    ([nat_lit 65273], [nat_lit 1604, nat_lit 1573]),
    ([nat_lit 65274], [nat_lit 1604, nat_lit 1573]),
    ([nat_lit 65275], [nat_lit 1604, nat_lit 1575]),
    ([nat_lit 65276], [nat_lit 1604, nat_lit 1575])]

def arabReversibleRoman : List (Str × Str) := [([nat_lit 1576], [nat_lit 98]),
    ([nat_lit 1659], [nat_lit 98, nat_lit 804]),
    ([nat_lit 1664], [nat_lit 98, nat_lit 863, nat_lit 104]),
    ([nat_lit 1662], [nat_lit 112]),
    ([nat_lit 1578], [nat_lit 116]),
    ([nat_lit 1657], [nat_lit 7789]),
    ([nat_lit 1663], [nat_lit 116, nat_lit 863, nat_lit 104]),
    ([nat_lit 1661], [nat_lit 7787]),
    ([nat_lit 1658], [nat_lit 7789, nat_lit 863, nat_lit 104]),
    ([nat_lit 1579], [nat_lit 115, nat_lit 817]),
    ([nat_lit 1580], [nat_lit 106]),
    ([nat_lit 1668], [nat_lit 106, nat_lit 776]),
    ([nat_lit 1667], [nat_lit 241]),
    ([nat_lit 1670], [nat_lit 99]),
    ([nat_lit 1671], [nat_lit 99, nat_lit 863, nat_lit 104]),
    ([nat_lit 1581], [nat_lit 7717]),
    ([nat_lit 1582], [nat_lit 107, nat_lit 863, nat_lit 104]),
    ([nat_lit 1583], [nat_lit 100]),
    ([nat_lit 1676], [nat_lit 100, nat_lit 863, nat_lit 104]),
    ([nat_lit 1679], [nat_lit 100, nat_lit 804]),
    ([nat_lit 1674], [nat_lit 7695]),
    ([nat_lit 1677], [nat_lit 7693, nat_lit 863, nat_lit 104]),
    ([nat_lit 1672], [nat_lit 7693]),
    ([nat_lit 1584], [nat_lit 7829]),
    ([nat_lit 1585], [nat_lit 114]),
    ([nat_lit 1681], [nat_lit 7771]),
    ([nat_lit 1689], [nat_lit 114, nat_lit 804]),
    ([nat_lit 1586], [nat_lit 122]),
    ([nat_lit 2226], [nat_lit 7825]),
    ([nat_lit 1688], [nat_lit 122, nat_lit 863, nat_lit 104]),
    ([nat_lit 1587], [nat_lit 115]),
    ([nat_lit 1588], [nat_lit 347]),
    ([nat_lit 1589], [nat_lit 7779]),
    ([nat_lit 1590], [nat_lit 7827]),
    ([nat_lit 1591], [nat_lit 116, nat_lit 804]),
    ([nat_lit 1592], [nat_lit 122, nat_lit 804]),
    ([nat_lit 1593], [nat_lit 699]),
    ([nat_lit 1594], [nat_lit 103, nat_lit 863, nat_lit 104]),
    ([nat_lit 1601], [nat_lit 102]),
    ([nat_lit 1698], [nat_lit 102, nat_lit 803]),
    ([nat_lit 1702], [nat_lit 112, nat_lit 863, nat_lit 104]),
    ([nat_lit 1602], [nat_lit 113]),
    ([nat_lit 1703], [nat_lit 113, nat_lit 774]),
    ([nat_lit 1700], [nat_lit 118, nat_lit 780]),
    ([nat_lit 1739], [nat_lit 119, nat_lit 780]),
    ([nat_lit 1701], [nat_lit 118, nat_lit 770]),
    ([nat_lit 1603], [nat_lit 107]),
    ([nat_lit 1706], [nat_lit 7731]),
    ([nat_lit 1705], [nat_lit 7729]),
    ([nat_lit 1711], [nat_lit 103]),
    ([nat_lit 1715], [nat_lit 103, nat_lit 776]),
    ([nat_lit 1716], [nat_lit 328]),
    ([nat_lit 1713], [nat_lit 110, nat_lit 776]),
    ([nat_lit 1604], [nat_lit 108]),
    ([nat_lit 1605], [nat_lit 109]),
    ([nat_lit 1606], [nat_lit 110]),
    ([nat_lit 1723], [nat_lit 7751]),
    ([nat_lit 1722], [nat_lit 110, nat_lit 817]),
    ([nat_lit 1608], [nat_lit 650]),
    ([nat_lit 1607], [nat_lit 104]),
    ([nat_lit 1577], [nat_lit 7831]),
    ([nat_lit 1609], [nat_lit 121]),
    ([nat_lit 1610], [nat_lit 121, nat_lit 804]),
    ([nat_lit 1614], [nat_lit 97]),
    ([nat_lit 1615], [nat_lit 117]),
    ([nat_lit 1616], [nat_lit 105]),
    ([nat_lit 1570], [nat_lit 700, nat_lit 863, nat_lit 257]),
    ([nat_lit 1740], [nat_lit 299]),
    ([nat_lit 1746], [nat_lit 121, nat_lit 863, nat_lit 105]),
    ([nat_lit 1569], [nat_lit 700]),
    ([nat_lit 1654], [nat_lit 118, nat_lit 863, nat_lit 39]),
    ([nat_lit 1574], [nat_lit 121, nat_lit 863, nat_lit 39]),
    ([nat_lit 1617], [nat_lit 720]),
    ([nat_lit 1618], [nat_lit 8728]),
    ([nat_lit 1761], [nat_lit 8728, nat_lit 770]),
    ([nat_lit 1612], [nat_lit 117, nat_lit 863, nat_lit 110]),
    ([nat_lit 1613], [nat_lit 105, nat_lit 863, nat_lit 110]),
    ([nat_lit 1611], [nat_lit 97, nat_lit 863, nat_lit 110]),
    ([nat_lit 1575], [nat_lit 257]),
    ([nat_lit 1729], [nat_lit 104, nat_lit 804]),
    ([nat_lit 1747], [nat_lit 233]),
    ([nat_lit 1572], [nat_lit 117, nat_lit 849]),
    ([nat_lit 1623], [nat_lit 596]),
    ([nat_lit 1731], [nat_lit 228]),
    ([nat_lit 1726], [nat_lit 688]),
    ([nat_lit 1728], [nat_lit 601]),
    ([nat_lit 1648], [nat_lit 7491]),
    ([nat_lit 1622], [nat_lit 8336]),
    ([nat_lit 1620], [nat_lit 688, nat_lit 855]),
    ([nat_lit 1621], [nat_lit 688, nat_lit 825]),
    ([nat_lit 1631], [nat_lit 816]),
    ([nat_lit 1619], [nat_lit 7504, nat_lit 855]),
    ([nat_lit 1571], [nat_lit 702, nat_lit 97]),
    ([nat_lit 1730], [nat_lit 702, nat_lit 104, nat_lit 804]),
    ([nat_lit 1735], [nat_lit 649]),
    ([nat_lit 1736], [nat_lit 252]),
    ([nat_lit 1568], [nat_lit 690]),
    ([nat_lit 1573], [nat_lit 363, nat_lit 700]),
    ([nat_lit 1650], [nat_lit 7841, nat_lit 772]),
    ([nat_lit 1651], [nat_lit 7909, nat_lit 772]),
    ([nat_lit 1660], [nat_lit 116, nat_lit 805]),
    ([nat_lit 1665], [nat_lit 380]),
    ([nat_lit 1669], [nat_lit 7777]),
    ([nat_lit 1673], [nat_lit 100, nat_lit 805]),
    ([nat_lit 1675], [nat_lit 7693, nat_lit 772]),
    ([nat_lit 1683], [nat_lit 114, nat_lit 805]),
    ([nat_lit 1685], [nat_lit 114, nat_lit 772]),
    ([nat_lit 1686], [nat_lit 291]),
    ([nat_lit 1687], [nat_lit 598]),
    ([nat_lit 1690], [nat_lit 7821]),
    ([nat_lit 1692], [nat_lit 349]),
    ([nat_lit 1695], [nat_lit 116, nat_lit 863, nat_lit 115]),
    ([nat_lit 1699], [nat_lit 7711, nat_lit 803]),
    ([nat_lit 1696], [nat_lit 110, nat_lit 863, nat_lit 103]),
    ([nat_lit 1704], [nat_lit 113, nat_lit 775]),
    ([nat_lit 1707], [nat_lit 103, nat_lit 778]),
    ([nat_lit 1709], [nat_lit 331]),
    ([nat_lit 1710], [nat_lit 103, nat_lit 803]),
    ([nat_lit 1712], [nat_lit 103, nat_lit 805]),
    ([nat_lit 1717], [nat_lit 322]),
    ([nat_lit 1724], [nat_lit 110, nat_lit 805]),
    ([nat_lit 1725], [nat_lit 7749, nat_lit 776]),
    ([nat_lit 1727], [nat_lit 241, nat_lit 775]),
    ([nat_lit 1732], [nat_lit 7885]),
    ([nat_lit 1734], [nat_lit 246]),
    ([nat_lit 1741], [nat_lit 601, nat_lit 8305]),
    ([nat_lit 1742], [nat_lit 234]),
    ([nat_lit 1743], [nat_lit 118, nat_lit 775]),
    ([nat_lit 1738], [nat_lit 118, nat_lit 776]),
    ([nat_lit 1744], [nat_lit 618]),
    ([nat_lit 1745], [nat_lit 255, nat_lit 775]),
    ([nat_lit 1749], [nat_lit 603]),
    ([nat_lit 1786], [nat_lit 7779, nat_lit 776]),
    ([nat_lit 1873], [nat_lit 112, nat_lit 803, nat_lit 776]),
    ([nat_lit 1874], [nat_lit 595]),
    ([nat_lit 1876], [nat_lit 7685]),
    ([nat_lit 1878], [nat_lit 269]),
    ([nat_lit 1888], [nat_lit 402]),
    ([nat_lit 1890], [nat_lit 107, nat_lit 794]),
    ([nat_lit 1891], [nat_lit 489]),
    ([nat_lit 1894], [nat_lit 7747]),
    ([nat_lit 1895], [nat_lit 110, nat_lit 804]),
    ([nat_lit 1897], [nat_lit 110, nat_lit 878]),
    ([nat_lit 1898], [nat_lit 7735]),
    ([nat_lit 1902], [nat_lit 499, nat_lit 804]),
    ([nat_lit 1903], [nat_lit 99, nat_lit 803]),
    ([nat_lit 1904], [nat_lit 643]),
    ([nat_lit 1905], [nat_lit 656]),
    ([nat_lit 2208], [nat_lit 387]),
    ([nat_lit 2210], [nat_lit 392]),
    ([nat_lit 2211], [nat_lit 429]),
    ([nat_lit 1557], [nat_lit 802]),
    ([nat_lit 1900], [nat_lit 637]),
    ([nat_lit 2212], [nat_lit 7711, nat_lit 776, nat_lit 803]),
    ([nat_lit 2213], [nat_lit 113, nat_lit 803]),
    ([nat_lit 2214], [nat_lit 11361]),
    ([nat_lit 2215], [nat_lit 7745, nat_lit 776]),
    ([nat_lit 2216], [nat_lit 253, nat_lit 804]),
    ([nat_lit 2217], [nat_lit 7823, nat_lit 804]),
    ([nat_lit 2227], [nat_lit 627]),
    ([nat_lit 1628], [nat_lit 798]),
    ([nat_lit 1684], [nat_lit 638, nat_lit 805]),
    ([nat_lit 1721], [nat_lit 327]),
    ([nat_lit 1787], [nat_lit 658]),
    ([nat_lit 1597], [nat_lit 654]),
    ([nat_lit 1649], [nat_lit 230]),
    ([nat_lit 1652], [nat_lit 660]),
    ([nat_lit 1653], [nat_lit 261]),
    ([nat_lit 1655], [nat_lit 366]),
    ([nat_lit 1656], [nat_lit 376]),
    ([nat_lit 1625], [nat_lit 281]),
    ([nat_lit 1788], [nat_lit 326]),
    ([nat_lit 1624], [nat_lit 771]),
    ([nat_lit 1626], [nat_lit 7805]),
    ([nat_lit 1627], [nat_lit 11377]),
    ([nat_lit 1770], [nat_lit 810]),
    ([nat_lit 1646], [nat_lit 384]),
    ([nat_lit 1880], [nat_lit 265]),
    ([nat_lit 1733], [nat_lit 339]),
    ([nat_lit 1775], [nat_lit 621]),
    ([nat_lit 1773], [nat_lit 7599]),
    ([nat_lit 1697], [nat_lit 102, nat_lit 695]),
    ([nat_lit 1896], [nat_lit 7750])]

def arabAr : AbjadData where
  lang := "ar"
  visualNorm := [([nat_lit 1581, nat_lit 1772], [nat_lit 1582]),
    ([nat_lit 1583, nat_lit 1772], [nat_lit 1584]),
    ([nat_lit 1585, nat_lit 1772], [nat_lit 1586]),
    ([nat_lit 1587, nat_lit 1755], [nat_lit 1588]),
    ([nat_lit 1589, nat_lit 1772], [nat_lit 1590]),
    ([nat_lit 1593, nat_lit 1772], [nat_lit 1594]),
    ([nat_lit 1603, nat_lit 1755], [nat_lit 1709]),
    ([nat_lit 1646, nat_lit 1628], [nat_lit 1576]),
    ([nat_lit 1646, nat_lit 1755], [nat_lit 1579]),
    ([nat_lit 1647, nat_lit 1755], [nat_lit 1704]),
    ([nat_lit 1697, nat_lit 1755], [nat_lit 1700]),
    ([nat_lit 1697, nat_lit 1772], [nat_lit 1601]),
    ([nat_lit 1722, nat_lit 1772], [nat_lit 1606]),
    ([nat_lit 1740, nat_lit 1620], [nat_lit 1574]),
    ([nat_lit 8203], []),
    ([nat_lit 8205], []),
    ([nat_lit 1608, nat_lit 1615], [nat_lit 1735]),
    ([nat_lit 1608, nat_lit 1561], [nat_lit 1735])]
  nonfinal := [([nat_lit 1740], [nat_lit 1610])]
  finalIsolated := []
  isolated := [([nat_lit 1601], [nat_lit 1703]),
    ([nat_lit 1729], [nat_lit 1607]),
    ([nat_lit 1731], [nat_lit 1577])]
  readingNorm := [([nat_lit 1661], [nat_lit 1578]),
    ([nat_lit 1740], [nat_lit 1610])]

def arabAzb : AbjadData where
  lang := "azb"
  visualNorm := [([nat_lit 1607, nat_lit 1620], [nat_lit 1728]),
    ([nat_lit 1740, nat_lit 1627], [nat_lit 1597]),
    ([nat_lit 8203], []),
    ([nat_lit 8205], []),
    ([nat_lit 1608, nat_lit 1615], [nat_lit 1735]),
    ([nat_lit 1608, nat_lit 1561], [nat_lit 1735])]
  nonfinal := [([nat_lit 1603], [nat_lit 1705]),
    ([nat_lit 1726], [nat_lit 1607]),
    ([nat_lit 1610], [nat_lit 1740])]
  finalIsolated := [([nat_lit 1609], [nat_lit 1740])]
  isolated := [([nat_lit 1729], [nat_lit 1607])]
  readingNorm := []

def arabBal : AbjadData where
  lang := "bal"
  visualNorm := [([nat_lit 1583, nat_lit 1557], [nat_lit 1672]),
    ([nat_lit 1585, nat_lit 1772], [nat_lit 1586]),
    ([nat_lit 1587, nat_lit 1755], [nat_lit 1588]),
    ([nat_lit 1608, nat_lit 1772], [nat_lit 1743]),
    ([nat_lit 1646, nat_lit 1628], [nat_lit 1576]),
    ([nat_lit 1722, nat_lit 1772], [nat_lit 1606]),
    ([nat_lit 8203], []),
    ([nat_lit 8205], []),
    ([nat_lit 1608, nat_lit 1615], [nat_lit 1735]),
    ([nat_lit 1608, nat_lit 1561], [nat_lit 1735])]
  nonfinal := [([nat_lit 1603], [nat_lit 1705]),
    ([nat_lit 1610], [nat_lit 1740]),
    ([nat_lit 1726], [nat_lit 1607])]
  finalIsolated := []
  isolated := [([nat_lit 1729], [nat_lit 1607])]
  readingNorm := [([nat_lit 1661], [nat_lit 1578])]

def arabCkb : AbjadData where
  lang := "ckb"
  visualNorm := [([nat_lit 1607, nat_lit 8204], [nat_lit 1749]),
    ([nat_lit 1581, nat_lit 1772], [nat_lit 1582]),
    ([nat_lit 1583, nat_lit 1772], [nat_lit 1584]),
    ([nat_lit 1585, nat_lit 1772], [nat_lit 1586]),
    ([nat_lit 1587, nat_lit 1755], [nat_lit 1588]),
    ([nat_lit 1589, nat_lit 1772], [nat_lit 1590]),
    ([nat_lit 1593, nat_lit 1772], [nat_lit 1594]),
    ([nat_lit 1646, nat_lit 1628], [nat_lit 1576]),
    ([nat_lit 1646, nat_lit 1755], [nat_lit 1579]),
    ([nat_lit 1697, nat_lit 1772], [nat_lit 1601]),
    ([nat_lit 1722, nat_lit 1772], [nat_lit 1606]),
    ([nat_lit 1740, nat_lit 1620], [nat_lit 1574]),
    ([nat_lit 8203], []),
    ([nat_lit 8205], []),
    ([nat_lit 1608, nat_lit 1615], [nat_lit 1735]),
    ([nat_lit 1608, nat_lit 1561], [nat_lit 1735])]
  nonfinal := [([nat_lit 1603], [nat_lit 1705]),
    ([nat_lit 1610], [nat_lit 1740]),
    ([nat_lit 1726], [nat_lit 1607])]
  finalIsolated := []
  isolated := [([nat_lit 1729], [nat_lit 1607])]
  readingNorm := [([nat_lit 1603], [nat_lit 1705]),
    ([nat_lit 1706], [nat_lit 1705]),
    ([nat_lit 1577], [nat_lit 1749]),
    ([nat_lit 1570], [nat_lit 1575]),
    ([nat_lit 1571], [nat_lit 1575]),
    ([nat_lit 1573], [nat_lit 1575]),
    ([nat_lit 1610], [nat_lit 1740]),
    ([nat_lit 1746], [nat_lit 1740]),
    ([nat_lit 1572], [nat_lit 1734]),
    ([nat_lit 1661], [nat_lit 1578])]

def arabFa : AbjadData where
  lang := "fa"
  visualNorm := [([nat_lit 1729], [nat_lit 1607]),
    ([nat_lit 1749], [nat_lit 1607]),
    ([nat_lit 1607, nat_lit 1620], [nat_lit 1728]),
    ([nat_lit 1740, nat_lit 1620], [nat_lit 1574]),
    ([nat_lit 1581, nat_lit 1772], [nat_lit 1582]),
    ([nat_lit 1583, nat_lit 1772], [nat_lit 1584]),
    ([nat_lit 1585, nat_lit 1755], [nat_lit 1688]),
    ([nat_lit 1585, nat_lit 1772], [nat_lit 1586]),
    ([nat_lit 1587, nat_lit 1755], [nat_lit 1588]),
    ([nat_lit 1589, nat_lit 1772], [nat_lit 1590]),
    ([nat_lit 1593, nat_lit 1772], [nat_lit 1594]),
    ([nat_lit 1646, nat_lit 1628], [nat_lit 1576]),
    ([nat_lit 1646, nat_lit 1755], [nat_lit 1579]),
    ([nat_lit 1697, nat_lit 1772], [nat_lit 1601]),
    ([nat_lit 1703], [nat_lit 1601]),
    ([nat_lit 1722, nat_lit 1772], [nat_lit 1606]),
    ([nat_lit 8203], []),
    ([nat_lit 8205], []),
    ([nat_lit 1608, nat_lit 1615], [nat_lit 1735]),
    ([nat_lit 1608, nat_lit 1561], [nat_lit 1735])]
  nonfinal := [([nat_lit 1603], [nat_lit 1705]),
    ([nat_lit 1610], [nat_lit 1740])]
  finalIsolated := []
  isolated := [([nat_lit 1729], [nat_lit 1607])]
  readingNorm := [([nat_lit 1610], [nat_lit 1740]),
    ([nat_lit 1731], [nat_lit 1577]),
    ([nat_lit 1603], [nat_lit 1705]),
    ([nat_lit 1682], [nat_lit 1585]),
    ([nat_lit 1572], [nat_lit 1608]),
    ([nat_lit 1661], [nat_lit 1578])]

def arabKs : AbjadData where
  lang := "ks"
  visualNorm := [([nat_lit 1651], [nat_lit 1575, nat_lit 1631]),
    ([nat_lit 1581, nat_lit 1620], [nat_lit 1665]),
    ([nat_lit 1585, nat_lit 1620], [nat_lit 1900]),
    ([nat_lit 1608, nat_lit 1626], [nat_lit 1734]),
    ([nat_lit 1740, nat_lit 1620], [nat_lit 1574]),
    ([nat_lit 1740, nat_lit 1626], [nat_lit 1742]),
    ([nat_lit 1646, nat_lit 1628], [nat_lit 1576]),
    ([nat_lit 1646, nat_lit 1557], [nat_lit 1657]),
    ([nat_lit 1646, nat_lit 1755], [nat_lit 1579]),
    ([nat_lit 1581, nat_lit 1772], [nat_lit 1582]),
    ([nat_lit 1583, nat_lit 1557], [nat_lit 1672]),
    ([nat_lit 1583, nat_lit 1772], [nat_lit 1584]),
    ([nat_lit 1585, nat_lit 1557], [nat_lit 1681]),
    ([nat_lit 1585, nat_lit 1772], [nat_lit 1586]),
    ([nat_lit 1585, nat_lit 1755], [nat_lit 1688]),
    ([nat_lit 1587, nat_lit 1755], [nat_lit 1588]),
    ([nat_lit 1589, nat_lit 1772], [nat_lit 1590]),
    ([nat_lit 1593, nat_lit 1772], [nat_lit 1594]),
    ([nat_lit 1697, nat_lit 1772], [nat_lit 1601]),
    ([nat_lit 1722, nat_lit 1772], [nat_lit 1606]),
    ([nat_lit 1571], [nat_lit 1650]),
    ([nat_lit 1573], [nat_lit 1575, nat_lit 1631]),
    ([nat_lit 1608, nat_lit 1615], [nat_lit 1735]),
    ([nat_lit 1609, nat_lit 1626], [nat_lit 1742]),
    ([nat_lit 1703], [nat_lit 1601]),
    ([nat_lit 8203], []),
    ([nat_lit 8205], []),
    ([nat_lit 1608, nat_lit 1615], [nat_lit 1735]),
    ([nat_lit 1608, nat_lit 1561], [nat_lit 1735])]
  nonfinal := [([nat_lit 1603], [nat_lit 1705]),
    ([nat_lit 1610], [nat_lit 1740]),
    ([nat_lit 1607], [nat_lit 1726])]
  finalIsolated := []
  isolated := []
  readingNorm := [([nat_lit 1577], [nat_lit 1731]),
    ([nat_lit 1646, nat_lit 1770], [nat_lit 1576]),
    ([nat_lit 1741], [nat_lit 1568]),
    ([nat_lit 1733], [nat_lit 1732]),
    ([nat_lit 1609], [nat_lit 1740, nat_lit 1648]),
    ([nat_lit 1603], [nat_lit 1705]),
    ([nat_lit 1610], [nat_lit 1740])]

def arabMs : AbjadData where
  lang := "ms"
  visualNorm := [([nat_lit 8203], []),
    ([nat_lit 8205], []),
    ([nat_lit 1608, nat_lit 1615], [nat_lit 1735]),
    ([nat_lit 1608, nat_lit 1561], [nat_lit 1735])]
  nonfinal := [([nat_lit 1603], [nat_lit 1705]),
    ([nat_lit 1726], [nat_lit 1607]),
    ([nat_lit 1740], [nat_lit 1610]),
    ([nat_lit 1662], [nat_lit 1725])]
  finalIsolated := []
  isolated := []
  readingNorm := []

def arabPa : AbjadData where
  lang := "pa"
  visualNorm := [([nat_lit 1606, nat_lit 1557], [nat_lit 1896]),
    ([nat_lit 1607, nat_lit 1620], [nat_lit 1730]),
    ([nat_lit 1650], [nat_lit 1571]),
    ([nat_lit 1651], [nat_lit 1573]),
    ([nat_lit 1703], [nat_lit 1601]),
    ([nat_lit 1646, nat_lit 1628], [nat_lit 1576]),
    ([nat_lit 1581, nat_lit 1772], [nat_lit 1582]),
    ([nat_lit 1583, nat_lit 1772], [nat_lit 1584]),
    ([nat_lit 1583, nat_lit 1557], [nat_lit 1672]),
    ([nat_lit 1585, nat_lit 1772], [nat_lit 1586]),
    ([nat_lit 1585, nat_lit 1557], [nat_lit 1681]),
    ([nat_lit 1585, nat_lit 1755], [nat_lit 1688]),
    ([nat_lit 1587, nat_lit 1755], [nat_lit 1588]),
    ([nat_lit 1593, nat_lit 1772], [nat_lit 1594]),
    ([nat_lit 1697, nat_lit 1772], [nat_lit 1601]),
    ([nat_lit 1722, nat_lit 1772], [nat_lit 1606]),
    ([nat_lit 1740, nat_lit 1620], [nat_lit 1574]),
    ([nat_lit 8203], []),
    ([nat_lit 8205], []),
    ([nat_lit 1608, nat_lit 1615], [nat_lit 1735]),
    ([nat_lit 1608, nat_lit 1561], [nat_lit 1735])]
  nonfinal := [([nat_lit 1603], [nat_lit 1705]),
    ([nat_lit 1607], [nat_lit 1726]),
    ([nat_lit 1610], [nat_lit 1740]),
    ([nat_lit 1722], [nat_lit 1606]),
    ([nat_lit 1723], [nat_lit 1657])]
  finalIsolated := [([nat_lit 1607], [nat_lit 1729]),
    ([nat_lit 1609], [nat_lit 1740])]
  isolated := [([nat_lit 1577], [nat_lit 1731]),
    ([nat_lit 1730], [nat_lit 1607, nat_lit 1620])]
  readingNorm := [([nat_lit 1610], [nat_lit 1740])]

def arabPrs : AbjadData where
  lang := "prs"
  visualNorm := [([nat_lit 1581, nat_lit 1772], [nat_lit 1582]),
    ([nat_lit 1583, nat_lit 1772], [nat_lit 1584]),
    ([nat_lit 1585, nat_lit 1755], [nat_lit 1688]),
    ([nat_lit 1585, nat_lit 1772], [nat_lit 1586]),
    ([nat_lit 1587, nat_lit 1755], [nat_lit 1588]),
    ([nat_lit 1589, nat_lit 1772], [nat_lit 1590]),
    ([nat_lit 1593, nat_lit 1772], [nat_lit 1594]),
    ([nat_lit 1607, nat_lit 1620], [nat_lit 1730]),
    ([nat_lit 1646, nat_lit 1628], [nat_lit 1576]),
    ([nat_lit 1646, nat_lit 1755], [nat_lit 1579]),
    ([nat_lit 1697, nat_lit 1772], [nat_lit 1601]),
    ([nat_lit 1703], [nat_lit 1601]),
    ([nat_lit 1722, nat_lit 1772], [nat_lit 1606]),
    ([nat_lit 1740, nat_lit 1620], [nat_lit 1574]),
    ([nat_lit 8203], []),
    ([nat_lit 8205], []),
    ([nat_lit 1608, nat_lit 1615], [nat_lit 1735]),
    ([nat_lit 1608, nat_lit 1561], [nat_lit 1735])]
  nonfinal := [([nat_lit 1603], [nat_lit 1705]),
    ([nat_lit 1610], [nat_lit 1740])]
  finalIsolated := []
  isolated := [([nat_lit 1607], [nat_lit 1729]),
    ([nat_lit 1729], [nat_lit 1607])]
  readingNorm := [([nat_lit 1661], [nat_lit 1578])]

def arabPs : AbjadData where
  lang := "ps"
  visualNorm := [([nat_lit 1581, nat_lit 1620], [nat_lit 1665]),
    ([nat_lit 1581, nat_lit 1755], [nat_lit 1669]),
    ([nat_lit 1581, nat_lit 1772], [nat_lit 1582]),
    ([nat_lit 1583, nat_lit 1772], [nat_lit 1584]),
    ([nat_lit 1585, nat_lit 1755], [nat_lit 1688]),
    ([nat_lit 1585, nat_lit 1772], [nat_lit 1586]),
    ([nat_lit 1587, nat_lit 1755], [nat_lit 1588]),
    ([nat_lit 1589, nat_lit 1772], [nat_lit 1590]),
    ([nat_lit 1593, nat_lit 1772], [nat_lit 1594]),
    ([nat_lit 1646, nat_lit 1628], [nat_lit 1576]),
    ([nat_lit 1697, nat_lit 1772], [nat_lit 1601]),
    ([nat_lit 1722, nat_lit 1772], [nat_lit 1606]),
    ([nat_lit 1740, nat_lit 1620], [nat_lit 1574]),
    ([nat_lit 8203], []),
    ([nat_lit 8205], []),
    ([nat_lit 1608, nat_lit 1615], [nat_lit 1735]),
    ([nat_lit 1608, nat_lit 1561], [nat_lit 1735])]
  nonfinal := []
  finalIsolated := []
  isolated := [([nat_lit 1729], [nat_lit 1607])]
  readingNorm := [([nat_lit 1740], [nat_lit 1610])]

def arabSd : AbjadData where
  lang := "sd"
  visualNorm := [([nat_lit 1646, nat_lit 1755], [nat_lit 1579]),
    ([nat_lit 1583, nat_lit 1557], [nat_lit 1672]),
    ([nat_lit 1583, nat_lit 1772], [nat_lit 1584]),
    ([nat_lit 1585, nat_lit 1772], [nat_lit 1586]),
    ([nat_lit 1585, nat_lit 1755], [nat_lit 1688]),
    ([nat_lit 1587, nat_lit 1755], [nat_lit 1588]),
    ([nat_lit 1589, nat_lit 1772], [nat_lit 1590]),
    ([nat_lit 1697, nat_lit 1772], [nat_lit 1601]),
    ([nat_lit 1722, nat_lit 1772], [nat_lit 1606]),
    ([nat_lit 1722, nat_lit 1557], [nat_lit 1723]),
    ([nat_lit 1740, nat_lit 1620], [nat_lit 1574]),
    ([nat_lit 1650], [nat_lit 1571]),
    ([nat_lit 1651], [nat_lit 1573]),
    ([nat_lit 8203], []),
    ([nat_lit 8205], []),
    ([nat_lit 1608, nat_lit 1615], [nat_lit 1735]),
    ([nat_lit 1608, nat_lit 1561], [nat_lit 1735])]
  nonfinal := [([nat_lit 1603], [nat_lit 1705]),
    ([nat_lit 1607], [nat_lit 1726]),
    ([nat_lit 1740], [nat_lit 1610]),
    ([nat_lit 1703], [nat_lit 1601]),
    ([nat_lit 1722], [nat_lit 1606])]
  finalIsolated := []
  isolated := [([nat_lit 1607], [nat_lit 1729]),
    ([nat_lit 1577], [nat_lit 1731])]
  readingNorm := [([nat_lit 1577], [nat_lit 1731]),
    ([nat_lit 1609], [nat_lit 1610, nat_lit 1648]),
    ([nat_lit 1740], [nat_lit 1610]),
    ([nat_lit 1607], [nat_lit 1729])]

def arabUg : AbjadData where
  lang := "ug"
  visualNorm := [([nat_lit 1608, nat_lit 1648], [nat_lit 1736]),
    ([nat_lit 1703], [nat_lit 1601]),
    ([nat_lit 1740, nat_lit 1620], [nat_lit 1574]),
    ([nat_lit 1593, nat_lit 1772], [nat_lit 1594]),
    ([nat_lit 1581, nat_lit 1772], [nat_lit 1582]),
    ([nat_lit 1583, nat_lit 1772], [nat_lit 1584]),
    ([nat_lit 1585, nat_lit 1772], [nat_lit 1586]),
    ([nat_lit 1697, nat_lit 1772], [nat_lit 1601]),
    ([nat_lit 1722, nat_lit 1772], [nat_lit 1606]),
    ([nat_lit 1587, nat_lit 1755], [nat_lit 1588]),
    ([nat_lit 1585, nat_lit 1755], [nat_lit 1688]),
    ([nat_lit 1603, nat_lit 1755], [nat_lit 1709]),
    ([nat_lit 1608, nat_lit 1755], [nat_lit 1739]),
    ([nat_lit 1608, nat_lit 1626], [nat_lit 1734]),
    ([nat_lit 1646, nat_lit 1628], [nat_lit 1576]),
    ([nat_lit 8203], []),
    ([nat_lit 8205], []),
    ([nat_lit 1608, nat_lit 1615], [nat_lit 1735]),
    ([nat_lit 1608, nat_lit 1561], [nat_lit 1735])]
  nonfinal := [([nat_lit 1705], [nat_lit 1603]),
    ([nat_lit 1607], [nat_lit 1726]),
    ([nat_lit 1740], [nat_lit 1610])]
  finalIsolated := [([nat_lit 1607], [nat_lit 1749])]
  isolated := [([nat_lit 1729], [nat_lit 1749])]
  readingNorm := [([nat_lit 1740], [nat_lit 1610])]

def arabUr : AbjadData where
  lang := "ur"
  visualNorm := [([nat_lit 1728], [nat_lit 1730]),
    ([nat_lit 1740, nat_lit 1620], [nat_lit 1574]),
    ([nat_lit 1650], [nat_lit 1571]),
    ([nat_lit 1651], [nat_lit 1573]),
    ([nat_lit 1646, nat_lit 1628], [nat_lit 1576]),
    ([nat_lit 1581, nat_lit 1772], [nat_lit 1582]),
    ([nat_lit 1583, nat_lit 1772], [nat_lit 1584]),
    ([nat_lit 1585, nat_lit 1772], [nat_lit 1586]),
    ([nat_lit 1587, nat_lit 1755], [nat_lit 1588]),
    ([nat_lit 1589, nat_lit 1772], [nat_lit 1590]),
    ([nat_lit 1593, nat_lit 1772], [nat_lit 1594]),
    ([nat_lit 1697, nat_lit 1772], [nat_lit 1601]),
    ([nat_lit 1722, nat_lit 1772], [nat_lit 1606]),
    ([nat_lit 1583, nat_lit 1557], [nat_lit 1672]),
    ([nat_lit 1585, nat_lit 1557], [nat_lit 1681]),
    ([nat_lit 1585, nat_lit 1755], [nat_lit 1688]),
    ([nat_lit 1607, nat_lit 1620], [nat_lit 1730]),
    ([nat_lit 1703], [nat_lit 1601]),
    ([nat_lit 8203], []),
    ([nat_lit 8205], []),
    ([nat_lit 1608, nat_lit 1615], [nat_lit 1735]),
    ([nat_lit 1608, nat_lit 1561], [nat_lit 1735])]
  nonfinal := [([nat_lit 1603], [nat_lit 1705]),
    ([nat_lit 1607], [nat_lit 1726]),
    ([nat_lit 1610], [nat_lit 1740]),
    ([nat_lit 1703], [nat_lit 1601]),
    ([nat_lit 1723], [nat_lit 1657]),
    ([nat_lit 1722], [nat_lit 1606])]
  finalIsolated := [([nat_lit 1609], [nat_lit 1740])]
  isolated := [([nat_lit 1607], [nat_lit 1729]),
    ([nat_lit 1577], [nat_lit 1731]),
    ([nat_lit 1728], [nat_lit 1730]),
    ([nat_lit 1607, nat_lit 1620], [nat_lit 1730])]
  readingNorm := [([nat_lit 1577], [nat_lit 1731]),
    ([nat_lit 1650], [nat_lit 1571]),
    ([nat_lit 1651], [nat_lit 1573]),
    ([nat_lit 1610], [nat_lit 1740])]

def arabUz : AbjadData where
  lang := "uz"
  visualNorm := [([nat_lit 1581, nat_lit 1772], [nat_lit 1582]),
    ([nat_lit 1585, nat_lit 1772], [nat_lit 1586]),
    ([nat_lit 1587, nat_lit 1755], [nat_lit 1588]),
    ([nat_lit 1603, nat_lit 1755], [nat_lit 1709]),
    ([nat_lit 1608, nat_lit 1615], [nat_lit 1735]),
    ([nat_lit 1608, nat_lit 1755], [nat_lit 1739]),
    ([nat_lit 1646, nat_lit 1628], [nat_lit 1576]),
    ([nat_lit 1697, nat_lit 1772], [nat_lit 1601]),
    ([nat_lit 1722, nat_lit 1772], [nat_lit 1606]),
    ([nat_lit 1740, nat_lit 1620], [nat_lit 1574]),
    ([nat_lit 8203], []),
    ([nat_lit 8205], []),
    ([nat_lit 1608, nat_lit 1615], [nat_lit 1735]),
    ([nat_lit 1608, nat_lit 1561], [nat_lit 1735])]
  nonfinal := [([nat_lit 1705], [nat_lit 1603]),
    ([nat_lit 1726], [nat_lit 1607]),
    ([nat_lit 1740], [nat_lit 1610]),
    ([nat_lit 1705], [nat_lit 1603]),
    ([nat_lit 1726], [nat_lit 1607]),
    ([nat_lit 1740], [nat_lit 1610])]
  finalIsolated := []
  isolated := [([nat_lit 1729], [nat_lit 1607])]
  readingNorm := []

/-- abjad_alphabet/util.py:29-30 `LANGS`. -/
def abjadLangs : List AbjadData :=
  [arabAr, arabAzb, arabBal, arabCkb, arabFa, arabKs, arabMs, arabPa, arabPrs, arabPs, arabSd, arabUg, arabUr, arabUz]

end Nisaba.Data
